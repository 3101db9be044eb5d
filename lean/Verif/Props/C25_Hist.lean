import Verif.Model.HistG
import Verif.Lemmas.Dist
import Mathlib.Data.Rat.Floor
import Mathlib.Tactic.NormNum

/-!
# C25: general histograms
-/
set_option linter.unusedSectionVars false
set_option linter.unusedSimpArgs false

namespace Ascot.C25
open Ascot.Dist Ascot.HistG

variable {K : Type} [Field K] [LinearOrder K] [IsStrictOrderedRing K] [FloorRing K]

/-! ## Specification -/

/-- The marker lies in bin `i` of an axis: for an axis in use in the `i`-th of its equal bins,
and bin 0 for an unused one.  `none` is a coordinate that the update does not evaluate. -/
def InBinOpt (a : Axis K) (i : Nat) (x : Option K) : Prop :=
  if a.n = 0 then i = 0 else ∃ y, x = some y ∧ i < a.n ∧ InBin a i y

def InCellOpt : List (Axis K) → List Nat → List (Option K) → Prop
  | [], [], [] => True
  | a :: as, i :: is, x :: xs => InBinOpt a i x ∧ InCellOpt as is xs
  | _, _, _ => False

/-- Every axis in use has a coordinate, which lies in its range. -/
def Within (axes : List (Axis K)) (xs : List (Option K)) : Prop :=
  List.Forall₂ (fun x a => a.n ≠ 0 → ∃ y, x = some y ∧ a.min ≤ y ∧ y < a.max) xs axes

/-- Cells: the bins of all axes, 0 for unused ones. -/
def CellOpt (axes : List (Axis K)) (is : List Nat) : Prop :=
  List.Forall₂ (fun i a => i < eff a.n) is axes

/-- Element of the array that belongs to a cell (mixed radix number). -/
def elementOf (axes : List (Axis K)) (is : List Nat) : Nat := radix (axes.map (fun a => eff a.n)) is

/-! ## Proofs -/

/-- The cells correspond one to one to the elements `0 .. Π n - 1`. -/
theorem cells (axes : List (Axis K)) :
    (∀ is, CellOpt axes is → elementOf axes is < (axes.map (fun a => eff a.n)).prod) ∧
    (∀ is js, CellOpt axes is → CellOpt axes js → elementOf axes is = elementOf axes js → is = js) ∧
    (∀ k < (axes.map (fun a => eff a.n)).prod, ∃ is, CellOpt axes is ∧ elementOf axes is = k) := by
  have hc : ∀ is, CellOpt axes is ↔
      List.Forall₂ (fun i n => i < n) is (axes.map (fun a => eff a.n)) := by
    intro is; unfold CellOpt; rw [List.forall₂_map_right_iff]
  refine ⟨fun is h => radix_lt ((hc is).1 h), fun is js h h' he => radix_inj ((hc is).1 h) ((hc js).1 h') he,
    fun k hk => ?_⟩
  obtain ⟨is, h1, h2⟩ := radix_surj _ k hk
  exact ⟨is, (hc is).2 h1, h2⟩

theorem strides_sum : ∀ (ns is : List Nat), is.length = ns.length → ns ≠ [] →
    (List.zipWith (· * ·) is (strides ns ++ [1])).sum = radix (ns.map eff) is ∧
    (strides ns).length + 1 = ns.length ∧
    (∀ n m rest, ns = n :: m :: rest → (strides ns).headD 1 = ((m :: rest).map eff).prod)
  | [n], [i], _, _ => by simp [strides, radix]
  | [n, m], [i, j], _, _ => by
    refine ⟨by simp [strides, radix], by simp [strides], ?_⟩
    intro a b rest h
    simp only [List.cons.injEq] at h
    obtain ⟨rfl, rfl, rfl⟩ := h
    simp [strides]
  | n :: m :: l :: rest, i :: is, hl, _ => by
    have ih := strides_sum (m :: l :: rest) is (by simpa using hl) (by simp)
    have h3 := ih.2.2 m l rest rfl
    refine ⟨?_, ?_, ?_⟩
    · simp only [strides, List.cons_append, List.zipWith_cons_cons, List.sum_cons, List.map_cons, radix,
        List.prod_cons] at ih ⊢
      rw [ih.1]
      simp only [strides, List.map_cons, List.prod_cons] at h3
      rw [h3]
    · simp only [strides, List.length_cons] at ih ⊢
      omega
    · intro a b r h
      simp only [List.cons.injEq] at h
      obtain ⟨rfl, rfl, rfl⟩ := h
      simp only [strides, List.headD_cons, List.map_cons, List.prod_cons] at h3 ⊢
      rw [h3]

theorem bin_cell {a : Axis K} (ha : a.n ≠ 0 → a.min < a.max) (x : Option K)
    (hx : a.n ≠ 0 → ∃ y, x = some y ∧ a.min ≤ y ∧ y < a.max) :
    ∃ i : Nat, binOpt a x = (i : Int) ∧ i < eff a.n ∧ InBinOpt a i x := by
  by_cases hn : a.n = 0
  · refine ⟨0, ?_, by simp [eff, hn], by simp [InBinOpt, hn]⟩
    cases x with
    | none => rfl
    | some y => simp [binOpt, binIndex, hn]
  · obtain ⟨y, rfl, h1, h2⟩ := hx hn
    have hm := ha hn
    have hn' : (0 : K) < a.n := Nat.cast_pos.2 (Nat.pos_of_ne_zero hn)
    have hd : 0 < a.max - a.min := by linarith
    have h0 : 0 ≤ binIndex a y := by
      unfold binIndex
      rw [Int.le_floor]
      push_cast
      exact div_nonneg (mul_nonneg hn'.le (by linarith)) hd.le
    have hlt : binIndex a y < a.n := by
      unfold binIndex
      rw [Int.floor_lt, div_lt_iff₀ hd]
      push_cast
      exact mul_lt_mul_of_pos_left (by linarith) hn'
    have hi : ((binIndex a y).toNat : Int) = binIndex a y := Int.toNat_of_nonneg h0
    refine ⟨(binIndex a y).toNat, hi.symm, ?_, ?_⟩
    · rw [eff, if_pos hn]; omega
    · unfold InBinOpt
      rw [if_neg hn]
      refine ⟨y, rfl, by omega, ?_⟩
      unfold InBin
      have e1 : (((binIndex a y).toNat : Nat) : K) = ((binIndex a y : Int) : K) := by
        rw [← Int.cast_natCast, hi]
      rw [e1]
      have f1 := Int.floor_le (a.n * (y - a.min) / (a.max - a.min))
      have f2 := Int.lt_floor_add_one (a.n * (y - a.min) / (a.max - a.min))
      change ((binIndex a y : Int) : K) ≤ _ at f1
      change _ < ((binIndex a y : Int) : K) + 1 at f2
      rw [le_div_iff₀ hd] at f1
      rw [div_lt_iff₀ hd] at f2
      constructor
      · rw [← mul_div_assoc]
        have : ((binIndex a y : Int) : K) * (a.max - a.min) / a.n ≤ y - a.min := by
          rw [div_le_iff₀ hn']; linarith
        linarith
      · rw [← mul_div_assoc]
        have : y - a.min < (((binIndex a y : Int) : K) + 1) * (a.max - a.min) / a.n := by
          rw [lt_div_iff₀ hn']; linarith
        linarith

theorem bins_cell : ∀ (axes : List (Axis K)) (xs : List (Option K)),
    (∀ a ∈ axes, a.n ≠ 0 → a.min < a.max) → Within axes xs →
    (binsOf axes xs).any (· < 0) = false ∧ CellOpt axes ((binsOf axes xs).map Int.toNat) ∧
      InCellOpt axes ((binsOf axes xs).map Int.toNat) xs
  | [], [], _, _ => ⟨rfl, .nil, trivial⟩
  | a :: as, x :: xs, hv, h => by
    unfold Within at h
    rw [List.forall₂_cons] at h
    have ih := bins_cell as xs (fun b hb => hv b (by simp [hb])) h.2
    obtain ⟨i, h1, h2, h3⟩ := bin_cell (hv a (by simp)) x h.1
    have e : binsOf (a :: as) (x :: xs) = (i : Int) :: binsOf as xs := by
      show _ :: _ = _
      rw [h1]; rfl
    rw [e]
    refine ⟨?_, .cons ?_ ih.2.1, ?_, ih.2.2⟩
    · rw [List.any_cons, ih.1]; simp
    · simpa using h2
    · simpa using h3

/-- A marker whose coordinates are within all axes in use contributes exactly its weight to
the element of the cell that contains it, if it is running.  `N` is the allocated number of
bins.  Missing from C25: markers outside an axis (`alias_fails`) and axes whose coordinate
is not evaluated (`charge_fails`). -/
theorem within_partial (axes : List (Axis K)) (hne : axes ≠ [])
    (hv : ∀ a ∈ axes, a.n ≠ 0 → a.min < a.max) (m : Marker K) (hm : Within axes m.coords) (h : Nat → K) :
    ∃ is, CellOpt axes is ∧ InCellOpt axes is m.coords ∧
      HistG.updateFo axes ((axes.map (fun a => eff a.n)).prod) [m] h =
        some (if m.running then addAt h (elementOf axes is) m.weight else h) := by
  obtain ⟨h1, h2, h3⟩ := bins_cell axes m.coords hv hm
  refine ⟨_, h2, h3, ?_⟩
  have hidx : index axes m.coords = some (elementOf axes ((binsOf axes m.coords).map Int.toNat)) := by
    unfold index elementOf
    simp only [h1]
    have := (strides_sum (axes.map Axis.n) ((binsOf axes m.coords).map Int.toNat)
      (by rw [h2.length_eq]; simp) (by simpa using hne)).1
    simp only [this, List.map_map]
    rfl
  have hlt := (cells axes).1 _ h2
  simp only [HistG.updateFo, List.foldl_cons, List.foldl_nil, hidx, Option.bind_eq_bind, Option.bind_some,
    Option.pure_def]
  cases m.running <;> simp [hlt]

theorem fold_mul (i : Nat) : ∀ (req : List (Nat × K × K × Nat)) (n : Nat) (a : Axis K),
    (req.map Prod.fst).Nodup →
    req.foldl (fun n q => if q.1 = i then n * q.2.2.2 else n) n =
      n * (if i ∈ req.map Prod.fst then
        (req.foldl (fun a q => if q.1 = i then (⟨q.2.2.2, q.2.1, q.2.2.1⟩ : Axis K) else a) a).n else 1)
  | [], n, a, _ => by simp
  | q :: l, n, a, hnd => by
    rw [List.map_cons, List.nodup_cons] at hnd
    rw [List.foldl_cons, List.foldl_cons]
    by_cases hq : q.1 = i
    · have hni : i ∉ l.map Prod.fst := hq ▸ hnd.1
      rw [if_pos hq, if_pos hq, fold_mul i l _ a hnd.2, if_neg hni, mul_one, if_pos (by simp [hq])]
      congr 1
      have : ∀ (l : List (Nat × K × K × Nat)) (b : Axis K), i ∉ l.map Prod.fst →
          l.foldl (fun a q => if q.1 = i then (⟨q.2.2.2, q.2.1, q.2.2.1⟩ : Axis K) else a) b = b := by
        intro l
        induction l with
        | nil => intro b _; rfl
        | cons x l ih =>
          intro b hb
          rw [List.map_cons, List.mem_cons, not_or] at hb
          rw [List.foldl_cons, if_neg (Ne.symm hb.1), ih b hb.2]
      rw [this l _ hni]
    · rw [if_neg hq, if_neg hq, fold_mul i l n a hnd.2]
      congr 1
      have : i ∈ (q :: l).map Prod.fst ↔ i ∈ l.map Prod.fst := by
        rw [List.map_cons, List.mem_cons]
        constructor
        · rintro (h | h)
          · exact absurd h.symm hq
          · exact h
        · exact Or.inr
      by_cases hi : i ∈ l.map Prod.fst
      · rw [if_pos hi, if_pos (this.2 hi)]
      · rw [if_neg hi, if_neg (fun h => hi (this.1 h))]

/-- The allocated number of bins is the product over the axes in use, if each coordinate is
requested at most once and with at least one bin. -/
theorem nbin_eq (req : List (Nat × K × K × Nat)) (hnd : (req.map Prod.fst).Nodup)
    (hpos : ∀ q ∈ req, 0 < q.2.2.2) :
    nbin req = ((axesOf req).map (fun a => eff a.n)).prod := by
  have hax : ∀ i, (if i ∈ req.map Prod.fst then (axisOf req i).n else 1) = eff (axisOf req i).n := by
    intro i
    have key : ∀ (l : List (Nat × K × K × Nat)) (a : Axis K), (∀ q ∈ l, 0 < q.2.2.2) →
        (i ∉ l.map Prod.fst →
          (l.foldl (fun a q => if q.1 = i then (⟨q.2.2.2, q.2.1, q.2.2.1⟩ : Axis K) else a) a).n = a.n) ∧
        (i ∈ l.map Prod.fst ∨ 0 < a.n →
          0 < (l.foldl (fun a q => if q.1 = i then (⟨q.2.2.2, q.2.1, q.2.2.1⟩ : Axis K) else a) a).n) := by
      intro l
      induction l with
      | nil => intro a _; exact ⟨fun _ => rfl, fun h => by simpa using h⟩
      | cons q l ih =>
        intro a hp
        rw [List.foldl_cons]
        by_cases hq : q.1 = i
        · rw [if_pos hq]
          refine ⟨fun h => absurd (by simp [hq]) h, fun _ => ?_⟩
          exact (ih _ (fun x hx => hp x (by simp [hx]))).2 (Or.inr (hp q (by simp)))
        · rw [if_neg hq]
          have := ih a (fun x hx => hp x (by simp [hx]))
          refine ⟨fun h => this.1 (fun hx => h (by rw [List.map_cons]; exact List.mem_cons_of_mem _ hx)), fun h => this.2 ?_⟩
          rcases h with h | h
          · rw [List.map_cons, List.mem_cons] at h
            rcases h with h | h
            · exact absurd h.symm hq
            · exact Or.inl h
          · exact Or.inr h
    have k := key req ⟨0, 0, 1⟩ hpos
    by_cases hi : i ∈ req.map Prod.fst
    · have := k.2 (Or.inl hi)
      rw [if_pos hi, eff, if_pos]
      exact Nat.pos_iff_ne_zero.1 this
    · rw [if_neg hi, eff, if_neg]
      rw [not_not]
      exact k.1 hi
  unfold nbin axesOf
  rw [List.map_map]
  generalize List.range 16 = l
  induction l with
  | nil => rfl
  | cons i l ih =>
    rw [List.foldr_cons, ih, fold_mul i req _ ⟨0, 0, 1⟩ hnd, List.map_cons, List.prod_cons]
    have := hax i
    unfold axisOf at this
    rw [this, mul_comm]
    rfl

/-- Axes R (2 bins) and PHI (3 bins), as given to `hist_init`. -/
def exReq : List (Nat × ℚ × ℚ × Nat) := [(0, 0, 2, 2), (1, 0, 3, 3)]

def exM (r phi : ℚ) : Marker ℚ :=
  ⟨true, [some r, some phi, some 0, some 0, some 0, some 0, some 0, some 0, some 0, some 0,
    none, none, none, none, some 0, none], 1⟩

/-- Witness: a marker whose angle is above the range of the PHI axis (as 4 of a range 0..3) is
added to a bin of the next R row, here to the bin with `1 ≤ R < 2`, `1 ≤ phi < 2` for a
marker at `R = 0`. -/
theorem alias_fails :
    ¬ Within (axesOf exReq) (exM 0 4).coords ∧
    (HistG.updateFo (axesOf exReq) (nbin exReq) [exM 0 4] (fun _ => 0)).map (fun h => h 4) = some 1 ∧
    elementOf (axesOf exReq) [1, 1, 0, 0, 0, 0, 0, 0, 0, 0, 0, 0, 0, 0, 0, 0] = 4 := by
  refine ⟨?_, by decide +kernel, by decide +kernel⟩
  intro h
  have e : axesOf exReq = ⟨2, 0, 2⟩ :: ⟨3, 0, 3⟩ :: ((List.range 14).map (fun i => axisOf exReq (i + 2))) := by
    rfl
  unfold Within exM at h
  rw [e, List.forall₂_cons, List.forall₂_cons] at h
  obtain ⟨y, hy, _, h2⟩ := h.2.1 (by norm_num)
  cases hy
  norm_num at h2

/-- Witness: with a CHARGE axis of bins [-1, 0) and [0, 1) every marker is counted in the first
bin, whatever its charge: the update does not evaluate the charge. -/
theorem charge_fails (r phi : ℚ) :
    (HistG.updateFo (axesOf [(15, -1, 1, 2)]) (nbin [(15, (-1 : ℚ), 1, 2)]) [exM r phi] (fun _ => 0)).map
      (fun h => (h 0, h 1)) = some (1, 0) := by
  have hidx : index (axesOf [(15, (-1 : ℚ), 1, 2)]) (exM r phi).coords = some 0 := by
    have hb : binsOf (axesOf [(15, (-1 : ℚ), 1, 2)]) (exM r phi).coords =
        [0, 0, 0, 0, 0, 0, 0, 0, 0, 0, 0, 0, 0, 0, 0, 0] := by
      have e : axesOf [(15, (-1 : ℚ), 1, 2)] = [⟨0, 0, 1⟩, ⟨0, 0, 1⟩, ⟨0, 0, 1⟩, ⟨0, 0, 1⟩, ⟨0, 0, 1⟩, ⟨0, 0, 1⟩,
        ⟨0, 0, 1⟩, ⟨0, 0, 1⟩, ⟨0, 0, 1⟩, ⟨0, 0, 1⟩, ⟨0, 0, 1⟩, ⟨0, 0, 1⟩, ⟨0, 0, 1⟩, ⟨0, 0, 1⟩, ⟨0, 0, 1⟩, ⟨2, -1, 1⟩] := rfl
      rw [e]
      simp [binsOf, exM, binOpt, binIndex]
    unfold index
    simp only [hb]
    decide +kernel
  have hn : nbin [(15, (-1 : ℚ), 1, 2)] = 2 := by decide +kernel
  simp only [HistG.updateFo, List.foldl_cons, List.foldl_nil, hidx, Option.bind_eq_bind, Option.bind_some,
    Option.pure_def, hn]
  simp [exM, addAt]

/-- A marker that meets the hypotheses of `within_partial`, in the second bin of each axis. -/
example : Within (axesOf exReq) (exM 1 1).coords ∧
    (HistG.updateFo (axesOf exReq) (nbin exReq) [exM 1 1] (fun _ => 0)).map (fun h => h 4) = some 1 := by
  refine ⟨?_, by decide +kernel⟩
  have e : axesOf exReq = ⟨2, 0, 2⟩ :: ⟨3, 0, 3⟩ :: List.replicate 14 ⟨0, 0, 1⟩ := by rfl
  rw [e]
  refine .cons (fun _ => ⟨1, rfl, by norm_num, by norm_num⟩)
    (.cons (fun _ => ⟨1, rfl, by norm_num, by norm_num⟩) ?_)
  simp [exM, List.replicate]

end Ascot.C25
