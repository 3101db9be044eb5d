import Verif.Model.WallFile
import Verif.Lemmas.PyFile
import Verif.Props.C30_C32_Wall3D
import Verif.Props.C33_C34_Wall2D
set_option linter.unusedSectionVars false
set_option linter.unusedSimpArgs false

/-!
# C135: the wall that the simulation sees is the one the user wrote

A user calls `write_hdf5` of one of the walls of the Python interface, the program reads the file and looks for the wall
element that a step hits.
-/
namespace Ascot.C135
open Ascot.PyFile Ascot.WallFile
open Ascot.Wall2D (MeetsSeg)
open Ascot.Wall3D (Tri InTri pointAt TriOk Transversal)
open Ascot.MarkerFile (Group readReals readInts)

/-- The argument `flag` of a user, in the documented shape. -/
def flagArg (n : ℕ) : Option (ℕ → ℤ) → Flag
  | none => .none
  | some f => .array [n, 1] (tab n f)

theorem flag_resolve (n : ℕ) (fl : Option (ℕ → ℤ)) : (flagArg n fl).resolve n = some (tab n (fl.getD fun _ => 0)) := by
  cases fl with
  | none =>
    simp only [flagArg, Flag.resolve, Option.getD_none, Option.some.injEq]
    apply List.ext_getElem <;> simp [tab]
  | some f => simp [flagArg, Flag.resolve]

/-! ## The contour -/

/-- The wall made of the segments between neighbouring vertices, the last one of which ends at the first vertex. -/
def Meets (n : ℕ) (r z : ℕ → ℝ) (p1 p2 : V3 ℝ) (i : ℕ) (t : ℝ) : Prop :=
  MeetsSeg p1.x p1.z p2.x p2.z (r i) (z i) (r ((i + 1) % n)) (z ((i + 1) % n)) t

/-- For every contour with at least one vertex and every step: the program has the number of elements and the flags of the user,
and reports the first of the user's segments that is met, numbered from one, and where; zero if none is met.  (Coordinates of
points are R, phi, z.) -/
theorem contour (n : ℕ) (r z : ℕ → ℝ) (fl : Option (ℕ → ℤ)) (hn : 1 ≤ n) :
    ∃ g d, write2D n (tab n r) (tab n z) (flagArg n fl) = .done g ∧ readWall (only "wall_2D" g) = .ok d ∧ nElements d = n ∧
      (∀ i < n, getFlag d i = some (fl.getD (fun _ => 0) i)) ∧
      ∀ p1 p2, ∃ id w, hitWall d p1 p2 = some (id, w) ∧
        ((id = 0 ∧ ∀ i < n, ∀ t, ¬ Meets n r z p1 p2 i t) ∨
          ∃ i < n, id = i + 1 ∧ Meets n r z p1 p2 i w ∧ ∀ j < n, ∀ t, Meets n r z p1 p2 j t → w ≤ t) := by
  have hw : ∃ g, write2D n (tab n r) (tab n z) (flagArg n fl) = .done g ∧ g.ints "nelements" = some [(n : ℤ)] ∧
      g.reals "r" = some (tab n r) ∧ g.reals "z" = some (tab n z) ∧ g.ints "flag" = some (tab n (fl.getD fun _ => 0)) := by
    refine ⟨?w, ?a, ?b⟩
    case a =>
      unfold write2D
      simp only [tab_length, ne_eq, not_true, if_false, flag_resolve]
      rw [createAll_done (by simp [Elems.length])]
    case b => simp [put, empty]
  obtain ⟨g, hg, h1, h2, h3, h4⟩ := hw
  have hlt : ∀ i, (i + 1) % n < n := fun i => Nat.mod_lt _ hn
  have hm : ∀ p1 p2 : V3 ℝ, ∀ i < n, ∀ t, Wall2D.Meets (⟨n, ext (fun _ => 0) fun i : Fin n => r i, ext (fun _ => 0) fun i : Fin n => z i⟩ : Wall2D.Wall ℝ)
      p1.x p1.z p2.x p2.z i t ↔ Meets n r z p1 p2 i t := by
    intro p1 p2 i hi t
    unfold Wall2D.Meets Meets
    simp only [ext_lt hi, ext_lt (hlt i)]
  refine ⟨g, .w2 ⟨n, ext (fun _ => 0) fun i : Fin n => r i, ext (fun _ => 0) fun i : Fin n => z i⟩
    (List.ofFn fun i : Fin n => fl.getD (fun _ => 0) i), hg, ?_, rfl, ?_, ?_⟩
  · rw [readWall, lastFound_only (r := read2D) (by simp) (by simp)]
    unfold read2D
    rw [readCount_eq h1, ok_bind, readReals_tab h2, ok_bind, readReals_tab h3, ok_bind, readInts_tab h4, ok_bind]
    unfold init2D
    rw [if_neg (by omega)]
  · intro i hi
    simp [getFlag, hi]
  · intro p1 p2
    refine ⟨_, _, rfl, ?_⟩
    rcases C33.nearest (⟨n, ext (fun _ => 0) fun i : Fin n => r i, ext (fun _ => 0) fun i : Fin n => z i⟩ : Wall2D.Wall ℝ)
      p1.x p1.z p2.x p2.z with ⟨a, b⟩ | ⟨i, hi, a, b, c⟩
    · exact .inl ⟨a, fun i hi t ht => b i hi t ((hm p1 p2 i hi t).mpr ht)⟩
    · exact .inr ⟨i, hi, a, (hm p1 p2 i hi _).mp b, fun j hj t ht => c j hj t ((hm p1 p2 j hj t).mpr ht)⟩

/-! ## Triangles -/

/-- Triangle `i` of the user. -/
def tri (x y z : ℕ → ℕ → ℝ) (i : ℕ) : Tri ℝ := ⟨⟨x i 0, y i 0, z i 0⟩, ⟨x i 1, y i 1, z i 1⟩, ⟨x i 2, y i 2, z i 2⟩⟩

/-- The Cartesian coordinates of a point given by R, phi and z. -/
noncomputable def xyz (p : V3 ℝ) : V3 ℝ := ⟨p.x * Real.cos p.y, p.x * Real.sin p.y, p.z⟩

theorem triOk_mono {t : Tri ℝ} {d d' : V3 ℝ} {eps : ℝ} (h : TriOk Real.sqrt eps d t) (h0 : 0 ≤ d.x ∧ 0 ≤ d.y ∧ 0 ≤ d.z)
    (hx : d.x ≤ d'.x) (hy : d.y ≤ d'.y) (hz : d.z ≤ d'.z) : TriOk Real.sqrt eps d' t := by
  obtain ⟨a, b, c⟩ := h0
  have key : ∀ {u v : V3 ℝ}, Wall3D.EdgeOk Real.sqrt eps d u v → Wall3D.EdgeOk Real.sqrt eps d' u v := by
    intro u v hh
    have m1 : d.y * d.z ≤ d'.y * d'.z := mul_le_mul hy hz c (by linarith)
    have m2 : d.x * d.z ≤ d'.x * d'.z := mul_le_mul hx hz c (by linarith)
    have m3 : d.x * d.y ≤ d'.x * d'.y := mul_le_mul hx hy b (by linarith)
    exact ⟨hh.x.imp id fun q => le_trans q (mul_le_mul_of_nonneg_left m1 (abs_nonneg _)),
      hh.y.imp id fun q => le_trans q (mul_le_mul_of_nonneg_left m2 (abs_nonneg _)),
      hh.z.imp id fun q => le_trans q (mul_le_mul_of_nonneg_left m3 (abs_nonneg _))⟩
  exact ⟨h.area, h.normal, key h.e12, key h.e32, key h.e13⟩

/-- The smallest cell of the search tree there can be: the margin on both sides divided into 64 parts. -/
noncomputable def cell : V3 ℝ := ⟨1 / 320, 1 / 320, 1 / 320⟩

/-- For every set of at least one triangle and every step: the program has the number of elements and the flags of the user, and
what it reports is zero or one of the user's triangles, numbered from one, with the point of the step that is in the triangle.  If
the step crosses a triangle, a hit is reported, and not later.  `partial`: for steps and triangles that are not almost parallel to
each other, and triangles that are not almost parallel to a coordinate axis or plane (C69). -/
theorem triangles_partial (n : ℕ) (x y z : ℕ → ℕ → ℝ) (fl : Option (ℕ → ℤ)) (hn : 1 ≤ n) :
    ∃ g d, write3D n (nd2 n 3 x) (nd2 n 3 y) (nd2 n 3 z) (flagArg n fl) = .done g ∧ readWall (only "wall_3D" g) = .ok d ∧
      nElements d = n ∧ (∀ i < n, getFlag d i = some (fl.getD (fun _ => 0) i)) ∧
      ∀ p1 p2, ∃ id w, hitWall d p1 p2 = some (id, w) ∧
        (id = 0 ∨ ∃ j < n, id = j + 1 ∧ (Transversal Real.sqrt eps (xyz p1) (xyz p2) (tri x y z j).t1 (tri x y z j).t2 (tri x y z j).t3 →
          0 ≤ w ∧ w ≤ 1 ∧ InTri (tri x y z j).t1 (tri x y z j).t2 (tri x y z j).t3 (pointAt (xyz p1) (xyz p2) w))) ∧
        ∀ j < n, TriOk Real.sqrt eps cell (tri x y z j) →
          Transversal Real.sqrt eps (xyz p1) (xyz p2) (tri x y z j).t1 (tri x y z j).t2 (tri x y z j).t3 →
          ∀ c, 0 ≤ c → c ≤ 1 → InTri (tri x y z j).t1 (tri x y z j).t2 (tri x y z j).t3 (pointAt (xyz p1) (xyz p2) c) →
            id ≠ 0 ∧ 0 ≤ w ∧ w ≤ c := by
  have hw : ∃ g, write3D n (nd2 n 3 x) (nd2 n 3 y) (nd2 n 3 z) (flagArg n fl) = .done g ∧ g.ints "nelements" = some [(n : ℤ)] ∧
      g.reals "x1x2x3" = some (tab (3 * n) fun k => x (k / 3) (k % 3)) ∧ g.reals "y1y2y3" = some (tab (3 * n) fun k => y (k / 3) (k % 3)) ∧
      g.reals "z1z2z3" = some (tab (3 * n) fun k => z (k / 3) (k % 3)) ∧ g.ints "flag" = some (tab n (fl.getD fun _ => 0)) := by
    refine ⟨?w, ?a, ?b⟩
    case a =>
      unfold write3D
      simp only [nd2_flat, flag_resolve]
      rw [if_neg (by simp [nd2]), if_neg (by simp [nd2]), if_neg (by simp [nd2])]
      rw [createAll_done (by simp [Elems.length])]
    case b => simp [put, empty, mul_comm]
  obtain ⟨g, hg, h1, h2, h3, h4, h5⟩ := hw
  have ht : (List.range n).map (triangle (n := n) (fun i => x (i / 3) (i % 3)) (fun i => y (i / 3) (i % 3)) (fun i => z (i / 3) (i % 3))) =
      tab n (tri x y z) := by
    apply tab_congr
    intro i hi
    unfold triangle tri
    have e0 : ∀ j, j < 3 → 3 * i + j < 3 * n := by intro j hj; omega
    have e1 : ∀ j, j < 3 → (3 * i + j) / 3 = i ∧ (3 * i + j) % 3 = j := by intro j hj; omega
    simp only [ext_lt (e0 0 (by omega)), ext_lt (e0 1 (by omega)), ext_lt (e0 2 (by omega)), (e1 0 (by omega)).1, (e1 0 (by omega)).2,
      (e1 1 (by omega)).1, (e1 1 (by omega)).2, (e1 2 (by omega)).1, (e1 2 (by omega)).2]
  have hne : tab n (tri x y z) ≠ [] := by
    intro h
    have := congrArg List.length h
    simp at this
    omega
  have hm : (0 : ℝ) < margin := by norm_num [margin]
  have he : (0 : ℝ) < eps := by norm_num [eps]
  obtain ⟨w, hinit, k2, -⟩ := Wall3D.init_ok Real.sqrt eps pad hm depth hne
  have get : ∀ j t, (tab n (tri x y z))[j]? = some t → j < n ∧ t = tri x y z j := by
    intro j t h
    unfold tab at h
    rw [List.getElem?_map] at h
    rcases hj : (List.range n)[j]? with _ | k
    · rw [hj] at h; simp at h
    · rw [hj] at h
      have := List.getElem?_eq_some_iff.mp hj
      obtain ⟨a, b⟩ := this
      simp at a b
      subst b
      simp at h
      exact ⟨a, h.symm⟩
  have put' : ∀ j < n, (tab n (tri x y z))[j]? = some (tri x y z j) := by
    intro j hj
    simp [tab, hj]
  refine ⟨g, .w3 w (List.ofFn fun i : Fin n => fl.getD (fun _ => 0) i), hg, ?_, ?_, ?_, ?_⟩
  · rw [readWall, lastFound_only (r := read3D) (by simp) (by simp)]
    unfold read3D
    rw [readCount_eq h1, ok_bind, readReals_tab h2, ok_bind, readReals_tab h3, ok_bind, readReals_tab h4, ok_bind, readInts_tab h5, ok_bind]
    rw [ht, hinit]
  · simp [nElements, k2.tris]
  · intro i hi
    simp [getFlag, hi]
  · intro p1 p2
    obtain ⟨l, h, e1, e2, e3⟩ := C31.first Real.sqrt hm hinit (xyz p1) (xyz p2)
    refine ⟨h.id, h.w, ?_, ?_, ?_⟩
    · unfold hitWall
      show Option.map _ (Wall3D.hitWallXyz Real.sqrt eps w (xyz p1) (xyz p2)) = _
      rw [e2]
      rfl
    · rcases e3 with ⟨a, -⟩ | ⟨j, a, ⟨-, t, b, c, c0⟩, -⟩
      · exact .inl a
      · obtain ⟨hj, rfl⟩ := get j t b
        refine .inr ⟨j, hj, a, fun htr => ?_⟩
        have hs := C32.sound C32.realSqrt he htr (c ▸ c0)
        rw [← c] at hs
        exact ⟨c0, hs.1, hs.2⟩
    · intro j hj hok htr c c0 c1 hin
      obtain ⟨i1, i2, i3, i4, i5, i6⟩ := k2.inside _ (List.mem_of_getElem? (put' j hj)) (tri x y z j).t1 (by simp)
      have hd : (2 : ℝ) ^ depth = 64 := by norm_num [depth]
      have hmm : margin = 1 / 10 := rfl
      have gx := k2.xg
      have gy := k2.yg
      have gz := k2.zg
      rw [hd] at gx gy gz
      rw [hmm] at i1 i2 i3 i4 i5 i6
      have hok' : TriOk Real.sqrt eps (Wall3D.gridOf w) (tri x y z j) := by
        refine triOk_mono hok (by norm_num [cell]) ?_ ?_ ?_ <;> simp only [cell, Wall3D.gridOf] <;> linarith
      obtain ⟨h', a, b, c', d'⟩ := C69.no_miss_partial C32.realSqrt he (by norm_num [pad]) hm (by norm_num [eps, depth, margin])
        hinit (put' j hj) hok' htr c0 c1 hin
      rw [e2] at a
      obtain rfl := Option.some.inj a
      exact ⟨b, c', d'⟩

/-! ## Refused input -/

/-- Arrays of a wrong size are refused, and no group is written. -/
theorem refused (n : ℕ) (r z : List ℝ) (x y w : Nd) (fl : Flag) :
    (r.length ≠ n ∨ z.length ≠ n → write2D n r z fl = .refused) ∧
    (x.shape ≠ [n, 3] ∨ y.shape ≠ [n, 3] ∨ w.shape ≠ [n, 3] → write3D n x y w fl = .refused) ∧
    ∀ s xs, fl = .array s xs → s ≠ [n, 1] → write2D n r z fl = .refused ∧ write3D n x y w fl = .refused := by
  refine ⟨fun h => ?_, fun h => ?_, fun s xs hf hs => ?_⟩
  · unfold write2D
    split_ifs with a b <;> first | rfl | (rcases h with h | h <;> simp_all)
  · unfold write3D
    split_ifs with a b c <;> first | rfl | (rcases h with h | h | h <;> simp_all)
  · subst hf
    have e : (Flag.array s xs).resolve n = none := by simp [Flag.resolve, hs]
    constructor
    · unfold write2D; rw [e]; split_ifs <;> rfl
    · unfold write3D; rw [e]; split_ifs <;> rfl

/-- **Violation.** A wall without elements is written without complaint, and reading it is an invalid access. -/
theorem empty_violation : (∃ g, write2D 0 [] [] .none = .done g ∧ readWall (only "wall_2D" g) = .ub) ∧
    ∃ g, write3D 0 (nd2 0 3 fun _ _ => 0) (nd2 0 3 fun _ _ => 0) (nd2 0 3 fun _ _ => 0) .none = .done g ∧
      readWall (only "wall_3D" g) = .ub := by
  constructor
  · refine ⟨_, by simp [write2D, Flag.resolve, createAll, create, Elems.length]; rfl, ?_⟩
    rw [readWall, lastFound_only (r := read2D) (by simp) (by simp)]
    simp [read2D, readCount, readReals, readInts, put, empty, init2D, ok_bind]
  · refine ⟨_, by simp [write3D, Flag.resolve, createAll, create, Elems.length, nd2, Nd.flat, indices]; rfl, ?_⟩
    rw [readWall, lastFound_only (r := read3D) (by simp) (by simp)]
    simp [read3D, readCount, readReals, readInts, put, empty, ok_bind, Wall3D.init, Wall3D.limits]

/-! ### The hypotheses can be met -/

/-- A square contour and a step that leaves it through the second segment. -/
example : Meets 4 (fun i => if i = 1 ∨ i = 2 then 2 else 1) (fun i => if i < 2 then 0 else 1) ⟨3 / 2, 0, 1 / 2⟩ ⟨5 / 2, 0, 1 / 2⟩ 1 (1 / 2) := by
  unfold Meets MeetsSeg
  refine ⟨by norm_num, by norm_num, by norm_num, 1 / 2, by norm_num, by norm_num, by norm_num, by norm_num⟩

/-- A triangle and a step through it. -/
example : (fun t : Tri ℝ => TriOk Real.sqrt eps cell t ∧
    Transversal Real.sqrt eps (xyz ⟨5 / 4, 0, -1⟩) (xyz ⟨5 / 4, 0, 1⟩) t.t1 t.t2 t.t3 ∧
    InTri t.t1 t.t2 t.t3 (pointAt (xyz ⟨5 / 4, 0, -1⟩) (xyz ⟨5 / 4, 0, 1⟩) (1 / 2)))
    (tri (fun _ j => if j = 1 then 2 else 1) (fun _ j => if j = 2 then 1 else 0) (fun _ _ => 0) 0) := by
  have e1 : tri (fun _ j => if j = 1 then 2 else 1) (fun _ j => if j = 2 then 1 else 0) (fun _ _ => 0) 0 =
      ⟨⟨1, 0, 0⟩, ⟨2, 0, 0⟩, ⟨1, 1, 0⟩⟩ := by simp [tri]
  have e2 : Wall3D.normalOf (⟨1, 0, 0⟩ : V3 ℝ) ⟨2, 0, 0⟩ ⟨1, 1, 0⟩ = ⟨0, 0, 1⟩ := by
    unfold Wall3D.normalOf V3.cross V3.sub; ext <;> norm_num
  have n1 : ((⟨2, 0, 0⟩ : V3 ℝ).sub ⟨1, 0, 0⟩).norm Real.sqrt ≤ 2 := by unfold V3.norm V3.sub; norm_num
  have n2 : ((⟨2, 0, 0⟩ : V3 ℝ).sub ⟨1, 1, 0⟩).norm Real.sqrt ≤ 2 := by unfold V3.norm V3.sub; norm_num [Real.sqrt_le_left]
  have n3 : ((⟨1, 1, 0⟩ : V3 ℝ).sub ⟨1, 0, 0⟩).norm Real.sqrt ≤ 2 := by unfold V3.norm V3.sub; norm_num
  have e3 : (xyz ⟨5 / 4, 0, 1⟩).sub (xyz ⟨5 / 4, 0, -1⟩) = ⟨0, 0, 2⟩ := by simp [xyz, V3.sub]; norm_num
  have e4 : (⟨0, 0, 2⟩ : V3 ℝ).norm Real.sqrt = 2 := by rw [C32.norm_axis_z]; norm_num
  have n4 : ((⟨1, 1, 0⟩ : V3 ℝ).sub ⟨2, 0, 0⟩).norm Real.sqrt ≤ 2 := by unfold V3.norm V3.sub; norm_num [Real.sqrt_le_left]
  rw [e1]
  dsimp only
  refine ⟨⟨?_, ?_, ?_, ?_, ?_⟩, ⟨?_, ?_⟩, 1 / 4, 0, by norm_num, le_rfl, by norm_num, ?_⟩
  · dsimp only; rw [e2, C32.norm_axis_z]; norm_num [eps]
  · dsimp only; rw [e2]; exact ⟨.inl rfl, .inl rfl, .inr (by norm_num [eps])⟩
  · exact ⟨.inr (by norm_num [eps, cell]; linarith), .inl (by norm_num), .inl (by norm_num)⟩
  · exact ⟨.inr (by norm_num [eps, cell]; linarith), .inr (by norm_num [eps, cell]; linarith), .inl (by norm_num)⟩
  · exact ⟨.inl (by norm_num), .inr (by norm_num [eps, cell]; linarith), .inl (by norm_num)⟩
  · rw [e2, e3, e4]; norm_num [eps, V3.dot]
  · rw [e3, e4]; norm_num
  · simp [pointAt, xyz]; norm_num

end Ascot.C135
