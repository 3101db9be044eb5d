import Verif.Spec.Dist
import Mathlib.Algebra.BigOperators.Group.Finset.Basic
import Mathlib.Algebra.BigOperators.Group.Finset.Piecewise
import Mathlib.Algebra.Order.Floor.Ring
import Mathlib.Tactic.Linarith
import Mathlib.Tactic.Ring
import Mathlib.Tactic.FieldSimp

set_option linter.unusedSectionVars false
set_option linter.unusedSimpArgs false

namespace Ascot.Dist

/-! ## Mixed radix numbers -/

def radix : List Nat → List Nat → Nat
  | _ :: ns, i :: is => i * ns.prod + radix ns is
  | _, _ => 0

theorem radix_lt : ∀ {ns is : List Nat}, List.Forall₂ (fun i n => i < n) is ns → radix ns is < ns.prod
  | [], _, .nil => by simp [radix]
  | n :: ns, i :: is, .cons h hs => by
    have := radix_lt hs
    rw [radix, List.prod_cons]
    calc i * ns.prod + radix ns is < i * ns.prod + ns.prod := by omega
      _ = (i + 1) * ns.prod := by ring
      _ ≤ n * ns.prod := Nat.mul_le_mul_right _ h

theorem radix_inj : ∀ {ns is js : List Nat}, List.Forall₂ (fun i n => i < n) is ns →
    List.Forall₂ (fun i n => i < n) js ns → radix ns is = radix ns js → is = js
  | [], _, _, .nil, .nil, _ => rfl
  | n :: ns, i :: is, j :: js, .cons h hs, .cons h' hs', he => by
    have h1 := radix_lt hs
    have h2 := radix_lt hs'
    rw [radix, radix] at he
    have hp : 0 < ns.prod := by omega
    have e1 : (i * ns.prod + radix ns is) / ns.prod = i := by
      rw [Nat.mul_comm, Nat.mul_add_div hp, Nat.div_eq_of_lt h1]; rfl
    have e2 : (j * ns.prod + radix ns js) / ns.prod = j := by
      rw [Nat.mul_comm, Nat.mul_add_div hp, Nat.div_eq_of_lt h2]; rfl
    have hij : i = j := by rw [← e1, ← e2, he]
    subst hij
    rw [radix_inj hs hs' (by omega)]

theorem radix_surj : ∀ (ns : List Nat) (k : Nat), k < ns.prod →
    ∃ is, List.Forall₂ (fun i n => i < n) is ns ∧ radix ns is = k
  | [], k, h => ⟨[], .nil, by simp at h; simp [radix, h]⟩
  | n :: ns, k, h => by
    rw [List.prod_cons] at h
    have hp : 0 < ns.prod := by
      rcases Nat.eq_zero_or_pos ns.prod with h0 | h0
      · rw [h0] at h; omega
      · exact h0
    obtain ⟨is, h1, h2⟩ := radix_surj ns (k % ns.prod) (Nat.mod_lt _ hp)
    refine ⟨k / ns.prod :: is, .cons ?_ h1, ?_⟩
    · rw [Nat.div_lt_iff_lt_mul hp]; exact h
    · rw [radix, h2]; exact Nat.div_add_mod' k ns.prod

variable {K : Type} [Field K] [LinearOrder K]

theorem cell_radix {axes : List (Axis K)} {is : List Nat} :
    Cell axes is ↔ List.Forall₂ (fun i n => i < n) is (axes.map Axis.n) := by
  unfold Cell; rw [List.forall₂_map_right_iff]

theorem good_of (d : Hist K)
    (hidx : ∀ is, is.length = d.axes.length → d.index is = radix (d.axes.map Axis.n) is)
    (hsize : d.size = (d.axes.map Axis.n).prod) : Good d := by
  have hlen : ∀ is, Cell d.axes is → is.length = d.axes.length := fun is h => h.length_eq
  refine ⟨?_, ?_, ?_⟩
  · intro is h
    rw [hidx is (hlen is h), hsize]; exact radix_lt (cell_radix.1 h)
  · intro is js h h' he
    rw [hidx is (hlen is h), hidx js (hlen js h')] at he
    exact radix_inj (cell_radix.1 h) (cell_radix.1 h') he
  · intro k hk
    rw [hsize] at hk
    obtain ⟨is, h1, h2⟩ := radix_surj _ k hk
    have hc := cell_radix.2 h1
    exact ⟨is, hc, by rw [hidx is (hlen is hc), h2]⟩

/-! ## Bins -/

variable [IsStrictOrderedRing K] [FloorRing K]

theorem bin_eq {a : Axis K} (ha : a.Valid) (i : Nat) (x : K) : bin a x = i ↔ InBin a i x := by
  unfold bin InBin
  have hn : (0 : K) < a.n := Nat.cast_pos.2 ha.1
  have hw : 0 < (a.max - a.min) / a.n := div_pos (by linarith [ha.2]) hn
  rw [Int.floor_eq_iff, le_div_iff₀ hw, div_lt_iff₀ hw]
  push_cast
  constructor
  · rintro ⟨h1, h2⟩; exact ⟨by linarith, by linarith⟩
  · rintro ⟨h1, h2⟩; exact ⟨by linarith, by linarith⟩

theorem binOk_iff {a : Axis K} (ha : a.Valid) (x : K) :
    binOk a (bin a x) = true ↔ a.min ≤ x ∧ x < a.max := by
  unfold binOk bin
  have hn : (0 : K) < a.n := Nat.cast_pos.2 ha.1
  have hw : 0 < (a.max - a.min) / a.n := div_pos (by linarith [ha.2]) hn
  have hwn : (a.n : K) * ((a.max - a.min) / a.n) = a.max - a.min := by field_simp
  simp only [decide_eq_true_eq]
  rw [Int.le_floor, Int.le_sub_one_iff, Int.floor_lt, le_div_iff₀ hw, div_lt_iff₀ hw]
  push_cast
  rw [hwn]
  constructor
  · rintro ⟨h1, h2⟩; exact ⟨by linarith, by linarith⟩
  · rintro ⟨h1, h2⟩; exact ⟨by linarith, by linarith⟩

theorem binOk_lt {a : Axis K} {i : Int} (h : binOk a i = true) : i.toNat < a.n ∧ (i.toNat : Int) = i := by
  unfold binOk at h
  simp only [decide_eq_true_eq] at h
  omega

variable (axes : List (Axis K))

theorem allOk_iff : ∀ (axes : List (Axis K)) (xs : List K), (∀ a ∈ axes, a.Valid) →
    xs.length = axes.length →
    ((List.zipWith binOk axes (List.zipWith bin axes xs)).all id = true ↔ Inside axes xs)
  | [], [], _, _ => by simp [Inside]
  | a :: as, x :: xs, hv, hl => by
    have ih := allOk_iff as xs (fun b hb => hv b (by simp [hb])) (by simpa using hl)
    simp only [List.zipWith_cons_cons, List.all_cons, id, Bool.and_eq_true]
    rw [ih, binOk_iff (hv a (by simp))]
    unfold Inside
    rw [List.forall₂_cons]

theorem inCell_bins : ∀ (axes : List (Axis K)) (xs : List K), (∀ a ∈ axes, a.Valid) →
    Inside axes xs →
    Cell axes ((List.zipWith bin axes xs).map Int.toNat) ∧
      InCell axes ((List.zipWith bin axes xs).map Int.toNat) xs
  | [], [], _, _ => ⟨.nil, trivial⟩
  | a :: as, x :: xs, hv, h => by
    unfold Inside at h
    rw [List.forall₂_cons] at h
    have ih := inCell_bins as xs (fun b hb => hv b (by simp [hb])) h.2
    have hb := binOk_lt ((binOk_iff (hv a (by simp)) x).2 h.1)
    refine ⟨.cons hb.1 ih.1, ?_, ih.2⟩
    rw [← bin_eq (hv a (by simp))]
    exact hb.2.symm

theorem inCell_unique : ∀ (axes : List (Axis K)) (is : List Nat) (xs : List K),
    (∀ a ∈ axes, a.Valid) → InCell axes is xs →
    is = (List.zipWith bin axes xs).map Int.toNat
  | [], [], [], _, _ => rfl
  | a :: as, i :: is, x :: xs, hv, h => by
    have ih := inCell_unique as is xs (fun b hb => hv b (by simp [hb])) h.2
    have := (bin_eq (hv a (by simp)) i x).2 h.1
    simp only [List.zipWith_cons_cons, List.map_cons]
    rw [← ih, this]; rfl

theorem inCell_inside : ∀ (axes : List (Axis K)) (is : List Nat) (xs : List K),
    (∀ a ∈ axes, a.Valid) → Cell axes is → InCell axes is xs → Inside axes xs
  | [], [], [], _, _, _ => .nil
  | a :: as, i :: is, x :: xs, hv, hc, h => by
    unfold Cell at hc
    rw [List.forall₂_cons] at hc
    refine .cons ?_ (inCell_inside as is xs (fun b hb => hv b (by simp [hb])) hc.2 h.2)
    have hb := (bin_eq (hv a (by simp)) i x).2 h.1
    rw [← binOk_iff (hv a (by simp)), hb]
    unfold binOk
    simp only [decide_eq_true_eq]
    omega

/-! ## Updates -/

theorem addAt_eq (h : Nat → K) (i : Nat) (w : K) (j : Nat) :
    addAt h i w j = h j + if j = i then w else 0 := by
  unfold addAt; split
  · rename_i hj; rw [hj]
  · rw [add_zero]

theorem updateGc_nil (d : Hist K) (h : Nat → K) : updateGc d [] h = h := rfl

theorem updateGc_cons (d : Hist K) (l : Lane K) (ls : List (Lane K)) (h : Nat → K) :
    updateGc d (l :: ls) h = updateGc d ls
      (if l.running = true ∧ allOk d l = true then addAt h (element d l) l.deposit else h) := by
  unfold updateGc
  rw [List.foldl_cons]
  congr 1
  unfold gcFirst Lane.deposit
  cases l.running <;> cases allOk d l <;> simp

theorem updateFoGpu_eq (d : Hist K) (ls : List (Lane K)) (h : Nat → K) :
    updateFoGpu d ls h = updateGc d ls h := by
  induction ls generalizing h with
  | nil => rfl
  | cons l ls ih =>
    rw [updateGc_cons, ← ih]
    unfold updateFoGpu Lane.deposit
    rw [List.foldl_cons]
    congr 1
    cases l.running <;> cases allOk d l <;> simp

theorem updateGc_at (d : Hist K) (ls : List (Lane K)) (h : Nat → K) (j : Nat) :
    updateGc d ls h j = h j + (ls.map (fun l =>
      if l.running = true ∧ allOk d l = true ∧ j = element d l then l.deposit else 0)).sum := by
  induction ls generalizing h with
  | nil => simp [updateGc_nil]
  | cons l ls ih =>
    rw [updateGc_cons, ih, List.map_cons, List.sum_cons, ← add_assoc]
    congr 1
    by_cases h1 : l.running = true ∧ allOk d l = true
    · rw [if_pos h1, addAt_eq]
      congr 1
      by_cases h2 : j = element d l
      · rw [if_pos h2, if_pos ⟨h1.1, h1.2, h2⟩]
      · rw [if_neg h2, if_neg (fun hc => h2 hc.2.2)]
    · rw [if_neg h1, if_neg (fun hc => h1 ⟨hc.1, hc.2.1⟩), add_zero]

theorem updateGc_flatten (d : Hist K) (us : List (List (Lane K))) (h : Nat → K) :
    us.foldl (fun h ls => updateGc d ls h) h = updateGc d us.flatten h := by
  induction us generalizing h with
  | nil => rfl
  | cons u us ih =>
    rw [List.foldl_cons, ih, List.flatten_cons]
    unfold updateGc
    rw [List.foldl_append]

section
variable {d : Hist K} (hd : Good d) (hv : ∀ a ∈ d.axes, a.Valid)
include hd hv

theorem element_cell {l : Lane K} (hl : l.coords.length = d.axes.length) {is : List Nat}
    (hc : Cell d.axes is) :
    (allOk d l = true ∧ d.index is = element d l) ↔ InCell d.axes is l.coords := by
  constructor
  · rintro ⟨h1, h2⟩
    have hi := (allOk_iff d.axes l.coords hv hl).1 h1
    have hb := inCell_bins d.axes l.coords hv hi
    have := hd.inj is _ hc hb.1 h2
    rw [this]; exact hb.2
  · intro h
    have hi := inCell_inside d.axes is l.coords hv hc h
    refine ⟨(allOk_iff d.axes l.coords hv hl).2 hi, ?_⟩
    rw [inCell_unique d.axes is l.coords hv h]; rfl

theorem element_lt {l : Lane K} (hl : l.coords.length = d.axes.length) (h : allOk d l = true) :
    element d l < d.size := by
  have hi := (allOk_iff d.axes l.coords hv hl).1 h
  exact hd.bound _ (inCell_bins d.axes l.coords hv hi).1

theorem updateGc_cell (ls : List (Lane K)) (hl : ∀ l ∈ ls, l.coords.length = d.axes.length)
    (h : Nat → K) (is : List Nat) (hc : Cell d.axes is) :
    updateGc d ls h (d.index is) = h (d.index is) + cellSum d.axes is ls := by
  rw [updateGc_at]
  unfold cellSum
  congr 2
  apply List.map_congr_left
  intro l hm
  have := element_cell hd hv (hl l hm) hc
  by_cases h1 : l.running = true ∧ InCell d.axes is l.coords
  · rw [if_pos h1, if_pos ⟨h1.1, this.2 h1.2⟩]
  · rw [if_neg h1, if_neg (fun hx => h1 ⟨hx.1, this.1 hx.2⟩)]

theorem updateGc_beyond (ls : List (Lane K)) (hl : ∀ l ∈ ls, l.coords.length = d.axes.length)
    (h : Nat → K) (j : Nat) (hj : d.size ≤ j) : updateGc d ls h j = h j := by
  induction ls generalizing h with
  | nil => rfl
  | cons l ls ih =>
    rw [updateGc_cons, ih (fun x hx => hl x (by simp [hx]))]
    split
    · rename_i h1
      have := element_lt hd hv (hl l (by simp)) h1.2
      rw [addAt_eq, if_neg (by omega), add_zero]
    · rfl

theorem updateGc_total (ls : List (Lane K)) (hl : ∀ l ∈ ls, l.coords.length = d.axes.length)
    (h : Nat → K) :
    ∑ j ∈ Finset.range d.size, updateGc d ls h j =
      ∑ j ∈ Finset.range d.size, h j + insideSum d.axes ls := by
  induction ls generalizing h with
  | nil => simp [updateGc_nil, insideSum]
  | cons l ls ih =>
    rw [updateGc_cons, ih (fun x hx => hl x (by simp [hx]))]
    unfold insideSum
    rw [List.map_cons, List.sum_cons, ← add_assoc]
    congr 1
    have hiff := allOk_iff d.axes l.coords hv (hl l (by simp))
    by_cases h1 : l.running = true ∧ allOk d l = true
    · rw [if_pos h1, if_pos ⟨h1.1, hiff.1 h1.2⟩]
      simp only [addAt_eq]
      rw [Finset.sum_add_distrib]
      congr 1
      rw [Finset.sum_ite_eq' (Finset.range d.size) (element d l) (fun _ => l.deposit)]
      rw [if_pos (Finset.mem_range.2 (element_lt hd hv (hl l (by simp)) h1.2))]
    · rw [if_neg h1, if_neg (fun hx => h1 ⟨hx.1, hiff.2 hx.2⟩), add_zero]

theorem updateFo_inside (ls : List (Lane K × (Nat × K)))
    (hl : ∀ l ∈ ls, l.1.coords.length = d.axes.length)
    (hin : ∀ l ∈ ls, l.1.running = true → Inside d.axes l.1.coords) (h : Nat → K) :
    updateFo d ls h = updateGc d (ls.map Prod.fst) h := by
  induction ls generalizing h with
  | nil => rfl
  | cons l ls ih =>
    rw [List.map_cons, updateGc_cons, ← ih (fun x hx => hl x (by simp [hx]))
      (fun x hx => hin x (by simp [hx]))]
    unfold updateFo
    rw [List.foldl_cons]
    congr 1
    have hiff := allOk_iff d.axes l.1.coords hv (hl l (by simp))
    by_cases hr : l.1.running = true
    · have hok : allOk d l.1 = true := hiff.2 (hin l (by simp) hr)
      have hlt := element_lt hd hv (hl l (by simp)) hok
      have hf : foFirst d l.1 l.2 = (element d l.1, l.1.deposit) := by
        simp [foFirst, hr, hok, Lane.deposit]
      simp only [hf]
      rw [if_pos ⟨hr, hlt⟩, if_pos ⟨hr, hok⟩]
    · rw [if_neg (fun hx => hr hx.1), if_neg (fun hx => hr hx.1)]

end

end Ascot.Dist
