import Verif.Spec.Wall3D
import Mathlib.Tactic.NormNum
import Mathlib.Tactic.Ring
import Mathlib.Tactic.Linarith
import Mathlib.Tactic.FieldSimp
import Mathlib.Tactic.LinearCombination
import Mathlib.Tactic.Positivity

set_option linter.unusedSectionVars false
set_option linter.unusedSimpArgs false

namespace Ascot.Wall3D
variable {K : Type} [Field K] [LinearOrder K] [IsStrictOrderedRing K]

/-- The eighth of a box selected by three bits. -/
def octant (b : Box K) (x y z : Bool) : Box K :=
  ⟨⟨if x then (b.hi.x + b.lo.x) / 2 else b.lo.x, if y then (b.hi.y + b.lo.y) / 2 else b.lo.y,
    if z then (b.hi.z + b.lo.z) / 2 else b.lo.z⟩,
   ⟨if x then b.hi.x else (b.hi.x + b.lo.x) / 2, if y then b.hi.y else (b.hi.y + b.lo.y) / 2,
    if z then b.hi.z else (b.hi.z + b.lo.z) / 2⟩⟩

/-- The tree divides the box `d` times. -/
def Shape (pad : K) : Nat → Box K → Tree K → Prop
  | 0, b, t => ∃ l, t = .leaf (padded pad b).1 (padded pad b).2 l
  | d + 1, b, t => ∃ n000 n100 n010 n110 n001 n101 n011 n111,
    t = .node (padded pad b).1 (padded pad b).2 n000 n100 n010 n110 n001 n101 n011 n111 ∧
    Shape pad d (octant b false false false) n000 ∧ Shape pad d (octant b true false false) n100 ∧
    Shape pad d (octant b false true false) n010 ∧ Shape pad d (octant b true true false) n110 ∧
    Shape pad d (octant b false false true) n001 ∧ Shape pad d (octant b true false true) n101 ∧
    Shape pad d (octant b false true true) n011 ∧ Shape pad d (octant b true true true) n111

theorem shape_bb {pad : K} {d : Nat} {b : Box K} {t : Tree K} (h : Shape pad d b t) :
    t.bb1 = (padded pad b).1 ∧ t.bb2 = (padded pad b).2 := by
  cases d with
  | zero => obtain ⟨l, rfl⟩ := h; exact ⟨rfl, rfl⟩
  | succ d => obtain ⟨_, _, _, _, _, _, _, _, rfl, _⟩ := h; exact ⟨rfl, rfl⟩

theorem shape_create (pad : K) : ∀ (d : Nat) (b : Box K),
    Shape pad d b (create pad d b.lo.x b.hi.x b.lo.y b.hi.y b.lo.z b.hi.z)
  | 0, b => ⟨[], rfl⟩
  | d + 1, b => by
    refine ⟨_, _, _, _, _, _, _, _, rfl, ?_, ?_, ?_, ?_, ?_, ?_, ?_, ?_⟩
    · exact shape_create pad d (octant b false false false)
    · exact shape_create pad d (octant b true false false)
    · exact shape_create pad d (octant b false true false)
    · exact shape_create pad d (octant b true true false)
    · exact shape_create pad d (octant b false false true)
    · exact shape_create pad d (octant b true false true)
    · exact shape_create pad d (octant b false true true)
    · exact shape_create pad d (octant b true true true)

theorem shape_add (pad : K) (test : V3 K → V3 K → Bool) (id : Nat) : ∀ (d : Nat) (b : Box K) (t : Tree K),
    Shape pad d b t → Shape pad d b (t.add test id)
  | 0, b, t, h => by obtain ⟨l, rfl⟩ := h; exact ⟨l ++ [id], rfl⟩
  | d + 1, b, t, h => by
    obtain ⟨a1, a2, a3, a4, a5, a6, a7, a8, rfl, h1, h2, h3, h4, h5, h6, h7, h8⟩ := h
    have ite_shape : ∀ {c : Bool} {b : Box K} {t : Tree K}, Shape pad d b t → Shape pad d b (if c then t.add test id else t) := by
      intro c b t h
      cases c with
      | false => exact h
      | true => exact shape_add pad test id d b t h
    exact ⟨_, _, _, _, _, _, _, _, rfl, ite_shape h1, ite_shape h2, ite_shape h3, ite_shape h4, ite_shape h5, ite_shape h6,
      ite_shape h7, ite_shape h8⟩

theorem eighth_octant {b : Box K} {p : V3 K} (x y z : Bool)
    (hx : if x then p.x > (b.hi.x + b.lo.x) / 2 else p.x < (b.hi.x + b.lo.x) / 2)
    (hy : if y then p.y > (b.hi.y + b.lo.y) / 2 else p.y < (b.hi.y + b.lo.y) / 2)
    (hz : if z then p.z > (b.hi.z + b.lo.z) / 2 else p.z < (b.hi.z + b.lo.z) / 2) : eighth b p = octant b x y z := by
  have key : ∀ {lo hi c : K} (x : Bool), (if x then c > (hi + lo) / 2 else c < (hi + lo) / 2) →
      half lo hi c = (if x then (hi + lo) / 2 else lo, if x then hi else (hi + lo) / 2) := by
    intro lo hi c x h
    unfold half
    cases x with
    | false => rw [if_pos (by simpa using h)]; rfl
    | true => rw [if_neg (by simp at h; exact not_lt.2 h.le)]; rfl
  unfold eighth octant
  rw [key x hx, key y hy, key z hz]

/-- How one level of the tree is passed. -/
theorem get_node {pad : K} {d : Nat} {b : Box K} {t : Tree K} (h : Shape pad (d + 1) b t) {p : V3 K}
    (hp : OffPlanes p (d + 1) b) : ∃ c, Shape pad d (eighth b p) c ∧ t.get p = c.get p ∧
      ∀ test id, (t.add test id).get p = (if test c.bb1 c.bb2 then c.add test id else c).get p := by
  obtain ⟨hx, hy, hz, -⟩ := hp
  obtain ⟨a1, a2, a3, a4, a5, a6, a7, a8, rfl, h1, h2, h3, h4, h5, h6, h7, h8⟩ := h
  have mid : ∀ lo hi : K, (lo - pad + (hi + pad)) / 2 = (hi + lo) / 2 := by intro lo hi; ring
  have mx : (b.lo.x + b.hi.x) / 2 = (b.hi.x + b.lo.x) / 2 := by ring
  have my : (b.lo.y + b.hi.y) / 2 = (b.hi.y + b.lo.y) / 2 := by ring
  have mz : (b.lo.z + b.hi.z) / 2 = (b.hi.z + b.lo.z) / 2 := by ring
  rcases lt_or_gt_of_ne hx with kx | kx <;> rcases lt_or_gt_of_ne hy with ky | ky <;> rcases lt_or_gt_of_ne hz with kz | kz
  · rw [eighth_octant false false false (by simpa using kx) (by simpa using ky) (by simpa using kz)]
    refine ⟨a1, h1, ?_, fun test id => ?_⟩ <;> simp [Tree.get, Tree.add, padded, mid, mx, my, mz, kx, ky, kz, not_lt.2 kx.le, not_lt.2 ky.le, not_lt.2 kz.le]
  · rw [eighth_octant false false true (by simpa using kx) (by simpa using ky) (by simpa using kz)]
    refine ⟨a5, h5, ?_, fun test id => ?_⟩ <;> simp [Tree.get, Tree.add, padded, mid, mx, my, mz, kx, ky, kz, not_lt.2 kx.le, not_lt.2 ky.le, not_lt.2 kz.le, not_lt.2 (le_of_lt kz)]
  · rw [eighth_octant false true false (by simpa using kx) (by simpa using ky) (by simpa using kz)]
    refine ⟨a3, h3, ?_, fun test id => ?_⟩ <;> simp [Tree.get, Tree.add, padded, mid, mx, my, mz, kx, ky, kz, not_lt.2 kx.le, not_lt.2 (le_of_lt ky), not_lt.2 kz.le]
  · rw [eighth_octant false true true (by simpa using kx) (by simpa using ky) (by simpa using kz)]
    refine ⟨a7, h7, ?_, fun test id => ?_⟩ <;> simp [Tree.get, Tree.add, padded, mid, mx, my, mz, kx, ky, kz, not_lt.2 kx.le, not_lt.2 (le_of_lt ky), not_lt.2 (le_of_lt kz)]
  · rw [eighth_octant true false false (by simpa using kx) (by simpa using ky) (by simpa using kz)]
    refine ⟨a2, h2, ?_, fun test id => ?_⟩ <;> simp [Tree.get, Tree.add, padded, mid, mx, my, mz, kx, ky, kz, not_lt.2 (le_of_lt kx), not_lt.2 ky.le, not_lt.2 kz.le]
  · rw [eighth_octant true false true (by simpa using kx) (by simpa using ky) (by simpa using kz)]
    refine ⟨a6, h6, ?_, fun test id => ?_⟩ <;> simp [Tree.get, Tree.add, padded, mid, mx, my, mz, kx, ky, kz, not_lt.2 (le_of_lt kx), not_lt.2 ky.le, not_lt.2 (le_of_lt kz)]
  · rw [eighth_octant true true false (by simpa using kx) (by simpa using ky) (by simpa using kz)]
    refine ⟨a4, h4, ?_, fun test id => ?_⟩ <;> simp [Tree.get, Tree.add, padded, mid, mx, my, mz, kx, ky, kz, not_lt.2 (le_of_lt kx), not_lt.2 (le_of_lt ky), not_lt.2 kz.le]
  · rw [eighth_octant true true true (by simpa using kx) (by simpa using ky) (by simpa using kz)]
    refine ⟨a8, h8, ?_, fun test id => ?_⟩ <;> simp [Tree.get, Tree.add, padded, mid, mx, my, mz, kx, ky, kz, not_lt.2 (le_of_lt kx), not_lt.2 (le_of_lt ky), not_lt.2 (le_of_lt kz)]

/-- The triangle passes the test with all boxes the point is in. -/
def passes (pad : K) (p : V3 K) (d : Nat) (b : Box K) (test : V3 K → V3 K → Bool) : Bool :=
  (path p d b).all fun c => test (padded pad c).1 (padded pad c).2

theorem get_add (pad : K) (test : V3 K → V3 K → Bool) (id : Nat) (p : V3 K) : ∀ (d : Nat) (b : Box K) (t : Tree K) (l : List Nat),
    Shape pad d b t → OffPlanes p d b → t.get p = some l →
    (t.add test id).get p = some (if passes pad p d b test then l ++ [id] else l)
  | 0, b, t, l, h, _, hg => by
    obtain ⟨l', rfl⟩ := h
    simp only [Tree.get, Option.some.injEq] at hg
    subst hg
    simp [Tree.add, Tree.get, passes, path]
  | d + 1, b, t, l, h, hp, hg => by
    obtain ⟨c, hc, h1, h2⟩ := get_node h hp
    rw [h1] at hg
    obtain ⟨b1, b2⟩ := shape_bb hc
    rw [h2, b1, b2]
    have ih := get_add pad test id p d (eighth b p) c l hc hp.2.2.2 hg
    by_cases ht : test (padded pad (eighth b p)).1 (padded pad (eighth b p)).2 = true
    · rw [if_pos ht, ih]
      have : passes pad p (d + 1) b test = passes pad p d (eighth b p) test := by
        simp [passes, path, ht]
      rw [this]
    · rw [if_neg ht, hg]
      have : passes pad p (d + 1) b test = false := by
        simp [passes, path, ht]
      rw [this]; rfl

theorem get_create (pad : K) (p : V3 K) : ∀ (d : Nat) (b : Box K), OffPlanes p d b →
    (create pad d b.lo.x b.hi.x b.lo.y b.hi.y b.lo.z b.hi.z).get p = some []
  | 0, _, _ => rfl
  | d + 1, b, hp => by
    obtain ⟨hx, hy, hz, hr⟩ := hp
    have mid : ∀ lo hi : K, (lo - pad + (hi + pad)) / 2 = (hi + lo) / 2 := by intro lo hi; ring
    have mx : (b.lo.x + b.hi.x) / 2 = (b.hi.x + b.lo.x) / 2 := by ring
    have my : (b.lo.y + b.hi.y) / 2 = (b.hi.y + b.lo.y) / 2 := by ring
    have mz : (b.lo.z + b.hi.z) / 2 = (b.hi.z + b.lo.z) / 2 := by ring
    have ih := get_create pad p d (eighth b p) hr
    rcases lt_or_gt_of_ne hx with kx | kx <;> rcases lt_or_gt_of_ne hy with ky | ky <;> rcases lt_or_gt_of_ne hz with kz | kz
    · rw [eighth_octant false false false (by simpa using kx) (by simpa using ky) (by simpa using kz)] at ih
      simpa [create, Tree.get, octant, mid, mx, my, mz, kx, ky, kz, not_lt.2 (le_of_lt kx), not_lt.2 (le_of_lt ky), not_lt.2 (le_of_lt kz)] using ih
    · rw [eighth_octant false false true (by simpa using kx) (by simpa using ky) (by simpa using kz)] at ih
      simpa [create, Tree.get, octant, mid, mx, my, mz, kx, ky, kz, not_lt.2 (le_of_lt kx), not_lt.2 (le_of_lt ky), not_lt.2 (le_of_lt kz)] using ih
    · rw [eighth_octant false true false (by simpa using kx) (by simpa using ky) (by simpa using kz)] at ih
      simpa [create, Tree.get, octant, mid, mx, my, mz, kx, ky, kz, not_lt.2 (le_of_lt kx), not_lt.2 (le_of_lt ky), not_lt.2 (le_of_lt kz)] using ih
    · rw [eighth_octant false true true (by simpa using kx) (by simpa using ky) (by simpa using kz)] at ih
      simpa [create, Tree.get, octant, mid, mx, my, mz, kx, ky, kz, not_lt.2 (le_of_lt kx), not_lt.2 (le_of_lt ky), not_lt.2 (le_of_lt kz)] using ih
    · rw [eighth_octant true false false (by simpa using kx) (by simpa using ky) (by simpa using kz)] at ih
      simpa [create, Tree.get, octant, mid, mx, my, mz, kx, ky, kz, not_lt.2 (le_of_lt kx), not_lt.2 (le_of_lt ky), not_lt.2 (le_of_lt kz)] using ih
    · rw [eighth_octant true false true (by simpa using kx) (by simpa using ky) (by simpa using kz)] at ih
      simpa [create, Tree.get, octant, mid, mx, my, mz, kx, ky, kz, not_lt.2 (le_of_lt kx), not_lt.2 (le_of_lt ky), not_lt.2 (le_of_lt kz)] using ih
    · rw [eighth_octant true true false (by simpa using kx) (by simpa using ky) (by simpa using kz)] at ih
      simpa [create, Tree.get, octant, mid, mx, my, mz, kx, ky, kz, not_lt.2 (le_of_lt kx), not_lt.2 (le_of_lt ky), not_lt.2 (le_of_lt kz)] using ih
    · rw [eighth_octant true true true (by simpa using kx) (by simpa using ky) (by simpa using kz)] at ih
      simpa [create, Tree.get, octant, mid, mx, my, mz, kx, ky, kz, not_lt.2 (le_of_lt kx), not_lt.2 (le_of_lt ky), not_lt.2 (le_of_lt kz)] using ih

theorem get_fold (pad : K) (p : V3 K) (d : Nat) (b : Box K) (hp : OffPlanes p d b) :
    ∀ (ts : List ((V3 K → V3 K → Bool) × Nat)) (t : Tree K) (l : List Nat), Shape pad d b t → t.get p = some l →
    (ts.foldl (fun t q => t.add q.1 q.2) t).get p = some (l ++ (ts.filter (fun q => passes pad p d b q.1)).map Prod.snd)
  | [], t, l, _, hg => by simpa using hg
  | q :: ts, t, l, hsh, hg => by
    rw [List.foldl_cons, get_fold pad p d b hp ts _ _ (shape_add pad q.1 q.2 d b t hsh)
      (get_add pad q.1 q.2 p d b t l hsh hp hg)]
    by_cases h : passes pad p d b q.1 = true
    · rw [if_pos h, List.filter_cons_of_pos (p := fun q : (V3 K → V3 K → Bool) × ℕ => passes pad p d b q.1) h]; simp
    · rw [if_neg h, List.filter_cons_of_neg (p := fun q : (V3 K → V3 K → Bool) × ℕ => passes pad p d b q.1) h]

/-! Cell centres -/

/-- The interval from `lo` to `hi` consists of `2^d` cells of width `g`, and one begins at `c`. -/
def AxisOk (d : Nat) (g c lo hi : K) : Prop := ∃ i : Nat, i < 2 ^ d ∧ c = lo + i * g ∧ hi = lo + 2 ^ d * g

theorem axis_half {d : Nat} {g c lo hi : K} (hg : 0 < g) (h : AxisOk (d + 1) g c lo hi) :
    c + g / 2 ≠ (hi + lo) / 2 ∧ AxisOk d g c (half lo hi (c + g / 2)).1 (half lo hi (c + g / 2)).2 := by
  obtain ⟨i, hi1, hc, hh⟩ := h
  have hp : (2 : K) ^ (d + 1) = 2 * 2 ^ d := by rw [pow_succ]; ring
  have hmid : (hi + lo) / 2 = lo + 2 ^ d * g := by rw [hh, hp]; ring
  have hpn : (2 : Nat) ^ (d + 1) = 2 * 2 ^ d := by rw [pow_succ]; ring
  by_cases hlt : i < 2 ^ d
  · have h1 : ((i : K) + 1) ≤ 2 ^ d := by exact_mod_cast hlt
    have h2 : c + g / 2 < (hi + lo) / 2 := by rw [hmid, hc]; nlinarith
    refine ⟨h2.ne, ?_⟩
    unfold half
    rw [if_pos h2]
    exact ⟨i, hlt, hc, hmid⟩
  · have h1 : (2 : K) ^ d ≤ i := by exact_mod_cast not_lt.1 hlt
    have h2 : (hi + lo) / 2 < c + g / 2 := by rw [hmid, hc]; nlinarith
    refine ⟨h2.ne', ?_⟩
    unfold half
    rw [if_neg (not_lt.2 h2.le)]
    refine ⟨i - 2 ^ d, by omega, ?_, ?_⟩
    · rw [Nat.cast_sub (not_lt.1 hlt), hmid, hc]; push_cast; ring
    · rw [hmid, hh, hp]; ring

theorem axis_in {d : Nat} {g c lo hi : K} (hg : 0 < g) (h : AxisOk d g c lo hi) : lo ≤ c ∧ c + g ≤ hi := by
  obtain ⟨i, hi1, hc, hh⟩ := h
  have h1 : ((i : K) + 1) ≤ 2 ^ d := by exact_mod_cast hi1
  have h0 : (0 : K) ≤ i := Nat.cast_nonneg i
  rw [hc, hh]
  constructor <;> nlinarith

/-- The box contains the cell that begins at `c`. -/
def HasCell (g c : V3 K) (b : Box K) : Prop :=
  (b.lo.x ≤ c.x ∧ c.x + g.x ≤ b.hi.x) ∧ (b.lo.y ≤ c.y ∧ c.y + g.y ≤ b.hi.y) ∧ (b.lo.z ≤ c.z ∧ c.z + g.z ≤ b.hi.z)

theorem path_cell {g c : V3 K} (gx : 0 < g.x) (gy : 0 < g.y) (gz : 0 < g.z) : ∀ (d : Nat) (b : Box K),
    AxisOk d g.x c.x b.lo.x b.hi.x → AxisOk d g.y c.y b.lo.y b.hi.y → AxisOk d g.z c.z b.lo.z b.hi.z →
    OffPlanes ⟨c.x + g.x / 2, c.y + g.y / 2, c.z + g.z / 2⟩ d b ∧
    ∀ e ∈ path ⟨c.x + g.x / 2, c.y + g.y / 2, c.z + g.z / 2⟩ d b, HasCell g c e
  | 0, _, _, _, _ => ⟨trivial, by simp [path]⟩
  | d + 1, b, hx, hy, hz => by
    obtain ⟨x1, x2⟩ := axis_half gx hx
    obtain ⟨y1, y2⟩ := axis_half gy hy
    obtain ⟨z1, z2⟩ := axis_half gz hz
    obtain ⟨ih1, ih2⟩ := path_cell gx gy gz d (eighth b ⟨c.x + g.x / 2, c.y + g.y / 2, c.z + g.z / 2⟩) x2 y2 z2
    refine ⟨⟨x1, y1, z1, ih1⟩, ?_⟩
    intro e he
    rcases List.mem_cons.1 he with rfl | he
    · exact ⟨axis_in gx x2, axis_in gy y2, axis_in gz z2⟩
    · exact ih2 e he

/-- The last box on the path is the cell. -/
theorem path_last {g c : V3 K} (gx : 0 < g.x) (gy : 0 < g.y) (gz : 0 < g.z) : ∀ (d : Nat) (b : Box K),
    AxisOk (d + 1) g.x c.x b.lo.x b.hi.x → AxisOk (d + 1) g.y c.y b.lo.y b.hi.y → AxisOk (d + 1) g.z c.z b.lo.z b.hi.z →
    (path ⟨c.x + g.x / 2, c.y + g.y / 2, c.z + g.z / 2⟩ (d + 1) b).getLast? =
      some ⟨c, ⟨c.x + g.x, c.y + g.y, c.z + g.z⟩⟩
  | 0, b, hx, hy, hz => by
    obtain ⟨-, i, i1, i2, i3⟩ := axis_half gx hx
    obtain ⟨-, j, j1, j2, j3⟩ := axis_half gy hy
    obtain ⟨-, k, k1, k2, k3⟩ := axis_half gz hz
    have hi0 : i = 0 := by omega
    have hj0 : j = 0 := by omega
    have hk0 : k = 0 := by omega
    subst hi0 hj0 hk0
    simp only [path, List.getLast?_singleton, Option.some.injEq]
    simp only [Nat.cast_zero, zero_mul, add_zero, pow_zero, one_mul] at i2 i3 j2 j3 k2 k3
    unfold eighth
    dsimp only
    rw [i3, j3, k3, ← i2, ← j2, ← k2]
  | d + 1, b, hx, hy, hz => by
    obtain ⟨x1, x2⟩ := axis_half gx hx
    obtain ⟨y1, y2⟩ := axis_half gy hy
    obtain ⟨z1, z2⟩ := axis_half gz hz
    have ih := path_last gx gy gz d (eighth b ⟨c.x + g.x / 2, c.y + g.y / 2, c.z + g.z / 2⟩) x2 y2 z2
    rw [path, List.getLast?_cons, ih]
    rfl

end Ascot.Wall3D
