import Verif.Lemmas.Octree

set_option linter.unusedSectionVars false
set_option linter.unusedSimpArgs false

namespace Ascot.Wall3D
variable {K : Type} [Field K] [LinearOrder K] [IsStrictOrderedRing K]

theorem store_ok {a : List Nat} {i v : Nat} (h : i < a.length) :
    ∃ a', store a i v = some a' ∧ a'.length = a.length ∧ a'[i]? = some v ∧ ∀ j, j ≠ i → a'[j]? = a[j]? := by
  refine ⟨a.set i v, by unfold store; rw [if_pos h], by simp, by simp [h], ?_⟩
  intro j hj
  rw [List.getElem?_set_ne (by omega)]

theorem storeIds_ok (pos : Nat) : ∀ (l : List Nat) (a : List Nat) (j : Nat), pos + j + l.length < a.length →
    ∃ a', storeIds a pos j l = some a' ∧ a'.length = a.length ∧ (∀ k, (hk : k < l.length) → a'[pos + j + k + 1]? = some l[k]) ∧
      ∀ m, (m ≤ pos + j ∨ pos + j + l.length < m) → a'[m]? = a[m]?
  | [], a, j, _ => ⟨a, rfl, rfl, by simp, fun _ _ => rfl⟩
  | id :: l, a, j, h => by
    simp only [List.length_cons] at h
    obtain ⟨a1, e1, l1, v1, u1⟩ := store_ok (a := a) (i := pos + j + 1) (v := id) (by omega)
    obtain ⟨a2, e2, l2, v2, u2⟩ := storeIds_ok pos l a1 (j + 1) (by omega)
    refine ⟨a2, by rw [storeIds, e1]; exact e2, by omega, ?_, ?_⟩
    · intro k hk
      cases k with
      | zero => rw [u2 _ (by omega)]; simpa using v1
      | succ k =>
        have := v2 k (by simpa using hk)
        rw [show pos + j + (k + 1) + 1 = pos + (j + 1) + k + 1 by omega]
        simpa using this
    · intro m hm
      simp only [List.length_cons] at hm
      rw [u2 _ (by omega), u1 _ (by omega)]

/-- The table holds the lists: the entry of cell `k` points to its length and identifiers. -/
def Holds (a : List Nat) (k : Nat) (l : List Nat) : Prop :=
  ∃ off, a[k]? = some off ∧ a[off]? = some l.length ∧ ∀ m, (hm : m < l.length) → a[off + m + 1]? = some l[m]

theorem storeCells_ok : ∀ (ls : List (List Nat)) (a : List Nat) (i next : Nat), i + ls.length ≤ next →
    next + ls.length + (ls.map List.length).sum ≤ a.length →
    ∃ a', storeCells a i next ls = some a' ∧ a'.length = a.length ∧
      (∀ k, (hk : k < ls.length) → ∃ off, next ≤ off ∧ a'[i + k]? = some off ∧ a'[off]? = some ls[k].length ∧
        ∀ m, (hm : m < ls[k].length) → a'[off + m + 1]? = some ls[k][m]) ∧
      ∀ m, (m < i ∨ (i + ls.length ≤ m ∧ m < next)) → a'[m]? = a[m]?
  | [], a, i, next, _, _ => ⟨a, rfl, rfl, by simp, fun _ _ => rfl⟩
  | l :: ls, a, i, next, h1, h2 => by
    simp only [List.length_cons, List.map_cons, List.sum_cons] at h1 h2
    obtain ⟨a1, e1, l1, v1, u1⟩ := store_ok (a := a) (i := i) (v := next) (by omega)
    obtain ⟨a2, e2, l2, v2, u2⟩ := store_ok (a := a1) (i := next) (v := l.length) (by omega)
    obtain ⟨a3, e3, l3, v3, u3⟩ := storeIds_ok next l a2 0 (by omega)
    obtain ⟨a4, e4, l4, v4, u4⟩ := storeCells_ok ls a3 (i + 1) (next + (l.length + 1)) (by omega) (by omega)
    refine ⟨a4, ?_, by omega, ?_, ?_⟩
    · rw [storeCells, e1]; simp only [Option.bind_eq_bind, Option.bind_some]
      rw [e2]; simp only [Option.bind_some]
      rw [e3]; simp only [Option.bind_some]
      exact e4
    · intro k hk
      cases k with
      | zero =>
        refine ⟨next, le_rfl, ?_, ?_, ?_⟩
        · rw [u4 _ (by omega), u3 _ (by omega), u2 _ (by omega)]; simpa using v1
        · rw [u4 _ (by omega), u3 _ (by omega)]; simpa using v2
        · intro m hm
          simp only [List.getElem_cons_zero] at hm ⊢
          rw [u4 _ (by omega)]
          simpa using v3 m hm
      | succ k =>
        obtain ⟨off, o1, o2, o3, o4⟩ := v4 k (by simpa using hk)
        refine ⟨off, by omega, ?_, by simpa using o3, ?_⟩
        · rw [show i + (k + 1) = i + 1 + k by omega]; exact o2
        · intro m hm
          simp only [List.getElem_cons_succ] at hm ⊢
          exact o4 m hm
    · intro m hm
      simp only [List.length_cons] at hm
      rw [u4 _ (by omega), u3 _ (by omega), u2 _ (by omega), u1 _ (by omega)]

theorem flatten_ok (ls : List (List Nat)) : ∃ a, flatten ls = some a ∧
    a.length = 2 * ls.length + (ls.map List.length).sum ∧ ∀ k, (hk : k < ls.length) → Holds a k ls[k] := by
  obtain ⟨a, h1, h2, h3, _⟩ := storeCells_ok ls (List.replicate (2 * ls.length + (ls.map List.length).sum) 0) 0 ls.length
    (by omega) (by simp; omega)
  refine ⟨a, h1, by rw [h2]; simp, ?_⟩
  intro k hk
  obtain ⟨off, _, o2, o3, o4⟩ := h3 k hk
  rw [Nat.zero_add] at o2
  exact ⟨off, o2, o3, o4⟩

theorem mapM_all {α β : Type} {f : α → Option β} {g : α → β} : ∀ (l : List α), (∀ x ∈ l, f x = some (g x)) →
    l.mapM f = some (l.map g)
  | [], _ => rfl
  | x :: l, h => by
    rw [List.mapM_cons, h x (by simp), mapM_all l (fun y hy => h y (by simp [hy]))]
    rfl

/-- Reading a list back from the table. -/
theorem read_holds {w : Wall K} {ix iy iz : Nat} {l : List Nat}
    (h : Holds w.table (ix * w.ngrid * w.ngrid + iy * w.ngrid + iz) l) : readCell w ix iy iz = some l := by
  obtain ⟨off, h1, h2, h3⟩ := h
  unfold readCell
  rw [h1]
  simp only [Option.bind_eq_bind, Option.bind_some]
  rw [h2]
  simp only [Option.bind_some]
  rw [mapM_all (g := fun m => l.getD m 0)]
  · congr 1
    apply List.ext_getElem
    · simp
    · intro n hn1 hn2
      simp [hn2]
  · intro m hm
    rw [List.mem_range] at hm
    rw [h3 m hm]
    simp [hm]

theorem le_minOf (f : V3 K → K) : ∀ (ts : List (Tri K)) (a : K), minOf f a ts ≤ a ∧
    ∀ t ∈ ts, minOf f a ts ≤ f t.t1 ∧ minOf f a ts ≤ f t.t2 ∧ minOf f a ts ≤ f t.t3
  | [], a => ⟨le_rfl, by simp⟩
  | t :: ts, a => by
    obtain ⟨h1, h2⟩ := le_minOf f ts (min (min (min a (f t.t1)) (f t.t2)) (f t.t3))
    have e : minOf f a (t :: ts) = minOf f (min (min (min a (f t.t1)) (f t.t2)) (f t.t3)) ts := rfl
    rw [e]
    have k1 : minOf f (min (min (min a (f t.t1)) (f t.t2)) (f t.t3)) ts ≤ f t.t3 := le_trans h1 (min_le_right _ _)
    have k2 := le_trans h1 (min_le_left _ _)
    have k3 := le_trans k2 (min_le_right _ _)
    have k4 := le_trans k2 (min_le_left _ _)
    have k5 := le_trans k4 (min_le_right _ _)
    have k6 := le_trans k4 (min_le_left _ _)
    refine ⟨k6, ?_⟩
    intro s hs
    rcases List.mem_cons.1 hs with rfl | hs
    · exact ⟨k5, k3, k1⟩
    · exact h2 s hs

theorem maxOf_le (f : V3 K → K) : ∀ (ts : List (Tri K)) (a : K), a ≤ maxOf f a ts ∧
    ∀ t ∈ ts, f t.t1 ≤ maxOf f a ts ∧ f t.t2 ≤ maxOf f a ts ∧ f t.t3 ≤ maxOf f a ts
  | [], a => ⟨le_rfl, by simp⟩
  | t :: ts, a => by
    obtain ⟨h1, h2⟩ := maxOf_le f ts (max (max (max a (f t.t1)) (f t.t2)) (f t.t3))
    have e : maxOf f a (t :: ts) = maxOf f (max (max (max a (f t.t1)) (f t.t2)) (f t.t3)) ts := rfl
    rw [e]
    have k1 : f t.t3 ≤ maxOf f (max (max (max a (f t.t1)) (f t.t2)) (f t.t3)) ts := le_trans (le_max_right _ _) h1
    have k2 := le_trans (le_max_left _ _) h1
    have k3 := le_trans (le_max_right _ _) k2
    have k4 := le_trans (le_max_left _ _) k2
    have k5 := le_trans (le_max_right _ _) k4
    have k6 := le_trans (le_max_left _ _) k4
    refine ⟨k6, ?_⟩
    intro s hs
    rcases List.mem_cons.1 hs with rfl | hs
    · exact ⟨k5, k3, k1⟩
    · exact h2 s hs

/-- What `limits` establishes. -/
structure LimitsOk (margin : K) (depth : Nat) (ts : List (Tri K)) (w : Wall K) : Prop where
  dep : w.depth = depth
  ngrid : w.ngrid = 2 ^ depth
  tris : w.tris = ts
  xg : w.xmax = w.xmin + 2 ^ depth * w.xgrid
  yg : w.ymax = w.ymin + 2 ^ depth * w.ygrid
  zg : w.zmax = w.zmin + 2 ^ depth * w.zgrid
  xpos : 0 < w.xgrid
  ypos : 0 < w.ygrid
  zpos : 0 < w.zgrid
  inside : ∀ t ∈ ts, ∀ v ∈ [t.t1, t.t2, t.t3], w.xmin + margin ≤ v.x ∧ v.x ≤ w.xmax - margin ∧
    w.ymin + margin ≤ v.y ∧ v.y ≤ w.ymax - margin ∧ w.zmin + margin ≤ v.z ∧ v.z ≤ w.zmax - margin

theorem limits_ok {margin : K} (hm : 0 < margin) (depth : Nat) {ts : List (Tri K)} (hne : ts ≠ []) :
    ∃ w, limits margin depth ts = some w ∧ LimitsOk margin depth ts w := by
  cases ts with
  | nil => exact absurd rfl hne
  | cons t ts =>
    refine ⟨_, rfl, ?_⟩
    obtain ⟨a1, b1⟩ := le_minOf V3.x (t :: ts) t.t1.x
    obtain ⟨a2, b2⟩ := le_minOf V3.y (t :: ts) t.t1.y
    obtain ⟨a3, b3⟩ := le_minOf V3.z (t :: ts) t.t1.z
    obtain ⟨c1, d1⟩ := maxOf_le V3.x (t :: ts) t.t1.x
    obtain ⟨c2, d2⟩ := maxOf_le V3.y (t :: ts) t.t1.y
    obtain ⟨c3, d3⟩ := maxOf_le V3.z (t :: ts) t.t1.z
    have hp : (0 : K) < 2 ^ depth := by positivity
    have hc : ((2 ^ depth : Nat) : K) = 2 ^ depth := by push_cast; rfl
    constructor
    · rfl
    · rfl
    · rfl
    · dsimp only; rw [hc]; field_simp; ring
    · dsimp only; rw [hc]; field_simp; ring
    · dsimp only; rw [hc]; field_simp; ring
    · dsimp only; rw [hc]; exact div_pos (by linarith) hp
    · dsimp only; rw [hc]; exact div_pos (by linarith) hp
    · dsimp only; rw [hc]; exact div_pos (by linarith) hp
    · intro s hs v hv
      obtain ⟨x1, x2, x3⟩ := b1 s hs
      obtain ⟨y1, y2, y3⟩ := b2 s hs
      obtain ⟨z1, z2, z3⟩ := b3 s hs
      obtain ⟨x4, x5, x6⟩ := d1 s hs
      obtain ⟨y4, y5, y6⟩ := d2 s hs
      obtain ⟨z4, z5, z6⟩ := d3 s hs
      simp only [List.mem_cons, List.not_mem_nil, or_false] at hv
      rcases hv with rfl | rfl | rfl <;> dsimp only <;> refine ⟨?_, ?_, ?_, ?_, ?_, ?_⟩ <;> linarith

theorem axisOk_cell {margin : K} {depth : Nat} {ts : List (Tri K)} {w : Wall K} (h : LimitsOk margin depth ts w)
    {ix iy iz : Nat} (hx : ix < w.ngrid) (hy : iy < w.ngrid) (hz : iz < w.ngrid) :
    AxisOk depth w.xgrid (corner w ix iy iz).x (domain w).lo.x (domain w).hi.x ∧
    AxisOk depth w.ygrid (corner w ix iy iz).y (domain w).lo.y (domain w).hi.y ∧
    AxisOk depth w.zgrid (corner w ix iy iz).z (domain w).lo.z (domain w).hi.z := by
  rw [h.ngrid] at hx hy hz
  exact ⟨⟨ix, hx, rfl, h.xg⟩, ⟨iy, hy, rfl, h.yg⟩, ⟨iz, hz, rfl, h.zg⟩⟩

theorem centre_eq (w : Wall K) (ix iy iz : Nat) : centre w ix iy iz =
    ⟨(corner w ix iy iz).x + (gridOf w).x / 2, (corner w ix iy iz).y + (gridOf w).y / 2,
      (corner w ix iy iz).z + (gridOf w).z / 2⟩ := by
  unfold centre corner gridOf; ext <;> dsimp only <;> ring

/-- The identifiers stored for a cell. -/
def cellIds (sqrt : K → K) (eps pad : K) (w : Wall K) (ix iy iz : Nat) : List Nat :=
  (w.tris.zipIdx.filter fun q => passes pad (centre w ix iy iz) w.depth (domain w) (triInCube sqrt eps q.1)).map Prod.snd

theorem buildTree_get {margin : K} {depth : Nat} {ts : List (Tri K)} {w : Wall K} (sqrt : K → K) (eps pad : K)
    (h : LimitsOk margin depth ts w) {ix iy iz : Nat} (hx : ix < w.ngrid) (hy : iy < w.ngrid) (hz : iz < w.ngrid) :
    (buildTree sqrt eps pad w).get (centre w ix iy iz) = some (cellIds sqrt eps pad w ix iy iz) := by
  obtain ⟨ax, ay, az⟩ := axisOk_cell h hx hy hz
  have hoff : OffPlanes (centre w ix iy iz) w.depth (domain w) := by
    rw [centre_eq, h.dep]
    exact (path_cell (g := gridOf w) (c := corner w ix iy iz) h.xpos h.ypos h.zpos depth (domain w) ax ay az).1
  have key := get_fold pad (centre w ix iy iz) w.depth (domain w) hoff
    (w.tris.zipIdx.map fun q => (triInCube sqrt eps q.1, q.2)) _ [] (shape_create pad w.depth (domain w))
    (get_create pad _ w.depth (domain w) hoff)
  rw [List.foldl_map] at key
  unfold buildTree
  refine Eq.trans key ?_
  rw [List.nil_append]
  unfold cellIds
  rw [List.filter_map, List.map_map]
  rfl

theorem decode {n ix iy iz : Nat} (hy : iy < n) (hz : iz < n) :
    (ix * n * n + iy * n + iz) / (n * n) = ix ∧ (ix * n * n + iy * n + iz) / n % n = iy ∧ (ix * n * n + iy * n + iz) % n = iz := by
  have hn : 0 < n := by omega
  have e1 : ix * n * n + iy * n + iz = (ix * n + iy) * n + iz := by ring
  have d1 : (ix * n * n + iy * n + iz) / n = ix * n + iy := by
    rw [e1, Nat.mul_comm, Nat.mul_add_div hn, Nat.div_eq_of_lt hz, Nat.add_zero]
  have m1 : (ix * n * n + iy * n + iz) % n = iz := by
    rw [e1, Nat.mul_comm, Nat.mul_add_mod, Nat.mod_eq_of_lt hz]
  refine ⟨?_, ?_, m1⟩
  · rw [← Nat.div_div_eq_div_mul, d1, Nat.mul_comm, Nat.mul_add_div hn, Nat.div_eq_of_lt hy, Nat.add_zero]
  · rw [d1, Nat.mul_comm, Nat.mul_add_mod, Nat.mod_eq_of_lt hy]

theorem bound {n ix iy iz : Nat} (hx : ix < n) (hy : iy < n) (hz : iz < n) : ix * n * n + iy * n + iz < n * n * n := by
  have h1 : iy * n + n ≤ n * n := by
    have : (iy + 1) * n ≤ n * n := Nat.mul_le_mul_right n hy
    rw [Nat.add_mul, Nat.one_mul] at this; exact this
  have h2 : ix * (n * n) + n * n ≤ n * (n * n) := by
    have : (ix + 1) * (n * n) ≤ n * (n * n) := Nat.mul_le_mul_right _ hx
    rw [Nat.add_mul, Nat.one_mul] at this; exact this
  rw [Nat.mul_assoc ix n n, Nat.mul_assoc n n n]
  omega

/-- Initialisation succeeds, and reading a cell gives the triangles that pass the tests. -/
theorem init_ok (sqrt : K → K) (eps pad : K) {margin : K} (hm : 0 < margin) (depth : Nat) {ts : List (Tri K)} (hne : ts ≠ []) :
    ∃ w, init sqrt eps pad margin depth ts = some w ∧ LimitsOk margin depth ts w ∧
      ∀ ix iy iz, ix < w.ngrid → iy < w.ngrid → iz < w.ngrid → readCell w ix iy iz = some (cellIds sqrt eps pad w ix iy iz) := by
  obtain ⟨w, hw, hl⟩ := limits_ok hm depth hne
  have hn : 0 < w.ngrid := by rw [hl.ngrid]; positivity
  have htl : triLists w (buildTree sqrt eps pad w) = some ((List.range (w.ngrid * w.ngrid * w.ngrid)).map fun c =>
      cellIds sqrt eps pad w (c / (w.ngrid * w.ngrid)) (c / w.ngrid % w.ngrid) (c % w.ngrid)) := by
    unfold triLists
    apply mapM_all
    intro c hc
    rw [List.mem_range] at hc
    apply buildTree_get sqrt eps pad hl
    · exact Nat.div_lt_of_lt_mul (by rw [Nat.mul_comm (w.ngrid * w.ngrid)]; rw [Nat.mul_assoc] at hc; exact hc)
    · exact Nat.mod_lt _ hn
    · exact Nat.mod_lt _ hn
  obtain ⟨a, ha, _, hh⟩ := flatten_ok ((List.range (w.ngrid * w.ngrid * w.ngrid)).map fun c =>
      cellIds sqrt eps pad w (c / (w.ngrid * w.ngrid)) (c / w.ngrid % w.ngrid) (c % w.ngrid))
  refine ⟨{ w with table := a }, ?_, ⟨hl.1, hl.2, hl.3, hl.4, hl.5, hl.6, hl.7, hl.8, hl.9, hl.10⟩, ?_⟩
  · unfold init
    rw [hw]; simp only [Option.bind_eq_bind, Option.bind_some]
    rw [htl]; simp only [Option.bind_some]
    rw [ha]; rfl
  · intro ix iy iz hx hy hz
    apply read_holds
    have hb := bound hx hy hz
    have := hh (ix * w.ngrid * w.ngrid + iy * w.ngrid + iz) (by simpa using hb)
    simp only [List.getElem_map, List.getElem_range] at this
    obtain ⟨d1, d2, d3⟩ := decode (ix := ix) hy hz
    rw [d1, d2, d3] at this
    exact this

end Ascot.Wall3D
