import Verif.Lemmas.Output

/-!
# C121: marker states in the output file
-/

set_option linter.unusedSectionVars false
set_option linter.unusedSimpArgs false

namespace Ascot.C121
open Ascot.Output Ascot.OutputDoc
open Ascot.MarkerFile (eCharge cRound cRound_int u_pos e_pos)

/-- All data sets that are written, with the charge numbers `k`. -/
noncomputable def sets (k : Particle.State → ℤ) (ps : List Particle.State) :
    List (String × String × Col) :=
  stateReals.map (fun s => (s.1, s.2.1, .real (ps.map s.2.2))) ++
  stateLongs.map (fun s => (s.1, s.2.1, .int (ps.map s.2.2))) ++
  [("charge", "e", .int (ps.map k))] ++
  stateInts.map (fun s => (s.1, s.2.1, .int (ps.map s.2.2)))

theorem writeState_eq (k : Particle.State → ℤ) (ps : List Particle.State)
    (hk : ∀ p ∈ ps, stateCharge p = .ok (k p)) :
    writeState ps = .ok (puts (sets k ps) newGroup) := by
  unfold writeState
  rw [mapRes_ok _ _ k hk]
  unfold puts sets
  simp only [List.foldl_append, List.foldl_map, List.foldl_cons, List.foldl_nil]

theorem sets_names (k : Particle.State → ℤ) (ps : List Particle.State) :
    (sets k ps).map Prod.fst = ["rprt", "phiprt", "zprt", "prprt", "pphiprt", "pzprt", "r", "phi",
      "z", "ppar", "mu", "zeta", "weight", "time", "mileage", "cputime", "rho", "theta", "mass",
      "br", "bphi", "bz", "ids", "endcond", "walltile", "charge", "anum", "znum", "errormsg",
      "errorline", "errormod"] := by
  simp [sets, stateReals, stateLongs, stateInts]

theorem sets_nodup (k : Particle.State → ℤ) (ps : List Particle.State) :
    ((sets k ps).map Prod.fst).Nodup := by
  rw [sets_names]; decide

theorem sets_length (k : Particle.State → ℤ) (ps : List Particle.State) :
    ∀ s ∈ sets k ps, s.2.2.length = ps.length := by
  intro s hs
  simp only [sets, List.mem_append, List.mem_map, List.mem_singleton] at hs
  rcases hs with ((⟨t, -, rfl⟩ | ⟨t, -, rfl⟩) | rfl) | ⟨t, -, rfl⟩ <;> simp [Col.length]

theorem charge_ok (p : Particle.State) (k : ℤ) (h : p.charge = k * e) (hk : |k| ≤ 2147483647) :
    stateCharge p = .ok k := by
  unfold stateCharge
  rw [h, show OutputDoc.e = eCharge from rfl, mul_div_assoc, div_self e_pos.ne', mul_one, cRound_int]
  exact toInt32_int k hk

/-- A column of real numbers in the unit with factor `f`. -/
theorem stored_real {l : List (String × String × Col)} {g : Group} (hn : (l.map Prod.fst).Nodup)
    (hg : ∀ s ∈ l, g s.1 = none) (hc : ∀ s ∈ l, s.2.2.length ≠ 0) {α : Type} (ps : List α)
    (name u : String) (w v : α → ℝ) (d : Dim) (f : ℝ) (hm : (name, u, Col.real (ps.map w)) ∈ l)
    (hu : unitOf u = some (d, f)) (hv : ∀ p, w p * f = v p) :
    Stored (puts l g) name d (ps.map v) := by
  refine ⟨_, _, f, puts_mem l g hn hg hc _ hm, rfl, hu, ?_⟩
  simp only [values, List.map_map]
  exact List.map_congr_left fun p _ => hv p

/-- A column of integers in the unit with factor `f`. -/
theorem stored_int {l : List (String × String × Col)} {g : Group} (hn : (l.map Prod.fst).Nodup)
    (hg : ∀ s ∈ l, g s.1 = none) (hc : ∀ s ∈ l, s.2.2.length ≠ 0) {α : Type} (ps : List α)
    (name u : String) (w : α → ℤ) (v : α → ℝ) (d : Dim) (f : ℝ)
    (hm : (name, u, Col.int (ps.map w)) ∈ l)
    (hu : unitOf u = some (d, f)) (hv : ∀ p ∈ ps, (w p : ℝ) * f = v p) :
    Stored (puts l g) name d (ps.map v) := by
  refine ⟨_, _, f, puts_mem l g hn hg hc _ hm, rfl, hu, ?_⟩
  simp only [values, List.map_map]
  exact List.map_congr_left fun p hp => hv p hp

theorem parse_bits (err : ℕ) :
    Error.parse err = (err % 2 ^ 8, err / 2 ^ 8 % 2 ^ 10, err / 2 ^ 18) := by
  unfold Error.parse
  simp only [Prod.mk.injEq]
  refine ⟨?_, ?_, ?_⟩ <;> omega

/-- Charges are multiples of the elementary charge that fit an `int`. -/
def Charged (ps : List Particle.State) : Prop :=
  ∀ p ∈ ps, ∃ k : ℤ, p.charge = k * e ∧ |k| ≤ 2147483647

/-- Every documented quantity of every marker is in the file, in the order of the markers and in
the unit that is given with it, and there is nothing else in the group. -/
theorem state (ps : List Particle.State) (h : ps ≠ []) (hq : Charged ps) :
    ∃ g, writeState ps = .ok g ∧
      (∀ q ∈ OutputDoc.state, Stored g q.name q.dim (ps.map q.val)) ∧
      ∀ name, g name ≠ none → ∃ q ∈ OutputDoc.state, q.name = name := by
  classical
  let k : Particle.State → ℤ := fun p => if hp : p ∈ ps then (hq p hp).choose else 0
  have hk : ∀ p ∈ ps, p.charge = k p * e ∧ |k p| ≤ 2147483647 := by
    intro p hp
    have := (hq p hp).choose_spec
    simpa only [k, dif_pos hp] using this
  have hn := sets_nodup k ps
  have hg : ∀ s ∈ sets k ps, newGroup s.1 = none := fun _ _ => rfl
  have hc : ∀ s ∈ sets k ps, s.2.2.length ≠ 0 := by
    intro s hs
    rw [sets_length k ps s hs]
    exact fun e => h (List.length_eq_zero_iff.mp e)
  refine ⟨_, writeState_eq k ps fun p hp => charge_ok p _ (hk p hp).1 (hk p hp).2, ?_, ?_⟩
  · have hpi := Real.pi_ne_zero
    have he : OutputDoc.e ≠ 0 := e_pos.ne'
    have hu : OutputDoc.amu ≠ 0 := u_pos.ne'
    have hee : eCharge = OutputDoc.e := rfl
    have huu : MarkerFile.amu = OutputDoc.amu := rfl
    have R := fun name u w v d f => stored_real hn hg hc ps name u w v d f
    have I := fun name u w v d f => stored_int hn hg hc ps name u w v d f
    have deg : ∀ x : ℝ, x * (180 / Real.pi) * (Real.pi / 180) = x := by
      intro x; field_simp
    simp only [OutputDoc.state, List.forall_mem_cons, List.not_mem_nil, false_imp_iff, implies_true,
      and_true]
    refine ⟨R "rprt" "m" (fun p => p.prt.x) _ _ 1 (by simp [sets, stateReals])
        (by simp [unitOf, List.lookup]) (fun p => mul_one _),
      R "phiprt" "deg" (fun p => p.prt.y * (180 / Real.pi)) _ _ (Real.pi / 180) (by simp [sets, stateReals])
        (by simp [unitOf, List.lookup]) (fun p => deg _),
      R "zprt" "m" (fun p => p.prt.z) _ _ 1 (by simp [sets, stateReals])
        (by simp [unitOf, List.lookup]) (fun p => mul_one _),
      R "prprt" "kg*m/s" (fun p => p.p.x) _ _ 1 (by simp [sets, stateReals])
        (by simp [unitOf, List.lookup]) (fun p => mul_one _),
      R "pphiprt" "kg*m/s" (fun p => p.p.y) _ _ 1 (by simp [sets, stateReals])
        (by simp [unitOf, List.lookup]) (fun p => mul_one _),
      R "pzprt" "kg*m/s" (fun p => p.p.z) _ _ 1 (by simp [sets, stateReals])
        (by simp [unitOf, List.lookup]) (fun p => mul_one _),
      R "r" "m" (fun p => p.gc.pos.x) _ _ 1 (by simp [sets, stateReals])
        (by simp [unitOf, List.lookup]) (fun p => mul_one _),
      R "phi" "deg" (fun p => p.gc.pos.y * (180 / Real.pi)) _ _ (Real.pi / 180) (by simp [sets, stateReals])
        (by simp [unitOf, List.lookup]) (fun p => deg _),
      R "z" "m" (fun p => p.gc.pos.z) _ _ 1 (by simp [sets, stateReals])
        (by simp [unitOf, List.lookup]) (fun p => mul_one _),
      R "ppar" "kg*m/s" (fun p => p.gc.ppar) _ _ 1 (by simp [sets, stateReals])
        (by simp [unitOf, List.lookup]) (fun p => mul_one _),
      R "mu" "eV/T" (fun p => p.gc.mu / eCharge) _ _ OutputDoc.e (by simp [sets, stateReals])
        (by simp [unitOf, List.lookup]) (fun p => div_mul_cancel₀ _ he),
      R "zeta" "rad" (fun p => p.gc.zeta) _ _ 1 (by simp [sets, stateReals])
        (by simp [unitOf, List.lookup]) (fun p => mul_one _),
      R "mass" "amu" (fun p => p.mass / MarkerFile.amu) _ _ OutputDoc.amu (by simp [sets, stateReals])
        (by simp [unitOf, List.lookup]) (fun p => div_mul_cancel₀ _ hu),
      I "charge" "e" k _ _ OutputDoc.e (by simp [sets])
        (by simp [unitOf, List.lookup]) (fun p hp => (hk p hp).1.symm),
      I "anum" "1" (fun p => p.anum) _ _ 1
        (by simp [sets, stateLongs, stateInts]) (by simp [unitOf, List.lookup]) (fun p _ => by simp),
      I "znum" "1" (fun p => p.znum) _ _ 1
        (by simp [sets, stateLongs, stateInts]) (by simp [unitOf, List.lookup]) (fun p _ => by simp),
      R "weight" "markers/s" (fun p => p.weight) _ _ 1 (by simp [sets, stateReals])
        (by simp [unitOf, List.lookup]) (fun p => mul_one _),
      R "time" "s" (fun p => p.time) _ _ 1 (by simp [sets, stateReals])
        (by simp [unitOf, List.lookup]) (fun p => mul_one _),
      R "mileage" "s" (fun p => p.mileage) _ _ 1 (by simp [sets, stateReals])
        (by simp [unitOf, List.lookup]) (fun p => mul_one _),
      R "cputime" "s" (fun p => p.cputime) _ _ 1 (by simp [sets, stateReals])
        (by simp [unitOf, List.lookup]) (fun p => mul_one _),
      R "rho" "1" (fun p => p.rho) _ _ 1 (by simp [sets, stateReals])
        (by simp [unitOf, List.lookup]) (fun p => mul_one _),
      R "theta" "deg" (fun p => p.theta * (180 / Real.pi)) _ _ (Real.pi / 180) (by simp [sets, stateReals])
        (by simp [unitOf, List.lookup]) (fun p => deg _),
      R "br" "T" (fun p => p.B.a.v) _ _ 1 (by simp [sets, stateReals])
        (by simp [unitOf, List.lookup]) (fun p => mul_one _),
      R "bphi" "T" (fun p => p.B.b.v) _ _ 1 (by simp [sets, stateReals])
        (by simp [unitOf, List.lookup]) (fun p => mul_one _),
      R "bz" "T" (fun p => p.B.c.v) _ _ 1 (by simp [sets, stateReals])
        (by simp [unitOf, List.lookup]) (fun p => mul_one _),
      I "ids" "1" (fun p => p.id) _ _ 1
        (by simp [sets, stateLongs, stateInts]) (by simp [unitOf, List.lookup]) (fun p _ => by simp),
      I "endcond" "1" (fun p => p.endcond) _ _ 1
        (by simp [sets, stateLongs, stateInts]) (by simp [unitOf, List.lookup]) (fun p _ => by simp),
      I "walltile" "1" (fun p => p.walltile) _ _ 1
        (by simp [sets, stateLongs, stateInts]) (by simp [unitOf, List.lookup]) (fun p _ => by simp),
      I "errormsg" "1" (fun p => ((Error.parse p.err).1 : ℕ)) _ _ 1
        (by simp [sets, stateLongs, stateInts]) (by simp [unitOf, List.lookup]) (fun p _ => by
          rw [parse_bits, mul_one]; exact Int.cast_natCast _),
      I "errorline" "1" (fun p => ((Error.parse p.err).2.1 : ℕ)) _ _ 1
        (by simp [sets, stateLongs, stateInts]) (by simp [unitOf, List.lookup]) (fun p _ => by
          rw [parse_bits, mul_one]; exact Int.cast_natCast _),
      I "errormod" "1" (fun p => ((Error.parse p.err).2.2 : ℕ)) _ _ 1
        (by simp [sets, stateLongs, stateInts]) (by simp [unitOf, List.lookup]) (fun p _ => by
          rw [parse_bits, mul_one]; exact Int.cast_natCast _)⟩
  · intro name hname
    have hm : name ∈ (sets k ps).map Prod.fst := by
      by_contra hm
      exact hname (by rw [puts_other _ _ _ hm]; rfl)
    rw [sets_names] at hm
    revert hm
    generalize name = x
    have : ∀ x ∈ ["rprt", "phiprt", "zprt", "prprt", "pphiprt", "pzprt", "r", "phi",
      "z", "ppar", "mu", "zeta", "weight", "time", "mileage", "cputime", "rho", "theta", "mass",
      "br", "bphi", "bz", "ids", "endcond", "walltile", "charge", "anum", "znum", "errormsg",
      "errorline", "errormod"], x ∈ OutputDoc.state.map Quantity.name := by
      simp [OutputDoc.state]
    intro hx
    obtain ⟨q, hq, rfl⟩ := List.mem_map.mp (this x hx)
    exact ⟨q, hq, rfl⟩

/-- Errors can be traced: message, line and module of a marker that was stopped by an error are in
the file. -/
theorem errors (ps : List Particle.State) (h : ps ≠ []) (hq : Charged ps) (type line file : ℕ)
    (ht : type < 256) (hl : line < 1024) (i : Fin ps.length)
    (he : (ps.get i).err = Error.raise type line file) :
    ∃ g, writeState ps = .ok g ∧
      (∃ u xs, g "errormsg" = some ⟨.int xs, u⟩ ∧ xs[i.1]? = some (type : ℤ)) ∧
      (∃ u xs, g "errorline" = some ⟨.int xs, u⟩ ∧ xs[i.1]? = some (line : ℤ)) ∧
      (∃ u xs, g "errormod" = some ⟨.int xs, u⟩ ∧ xs[i.1]? = some (file : ℤ)) := by
  classical
  let k : Particle.State → ℤ := fun p => if hp : p ∈ ps then (hq p hp).choose else 0
  have hk : ∀ p ∈ ps, p.charge = k p * e ∧ |k p| ≤ 2147483647 := by
    intro p hp
    have := (hq p hp).choose_spec
    simpa only [k, dif_pos hp] using this
  have hn := sets_nodup k ps
  have hg : ∀ s ∈ sets k ps, newGroup s.1 = none := fun _ _ => rfl
  have hc : ∀ s ∈ sets k ps, s.2.2.length ≠ 0 := by
    intro s hs
    rw [sets_length k ps s hs]
    exact fun e => h (List.length_eq_zero_iff.mp e)
  have hpar : Error.parse (ps.get i).err = (type, line, file) := by
    rw [he]; unfold Error.parse Error.raise
    simp only [Prod.mk.injEq]
    refine ⟨?_, ?_, ?_⟩ <;> omega
  have get : ∀ w : Particle.State → ℤ, (ps.map w)[i.1]? = some (w (ps.get i)) := by
    intro w; simp
  refine ⟨_, writeState_eq k ps fun p hp => charge_ok p _ (hk p hp).1 (hk p hp).2,
    ⟨_, _, puts_mem _ _ hn hg hc ("errormsg", "1", .int (ps.map fun p => ((Error.parse p.err).1 : ℕ)))
      (by simp [sets, stateInts]), ?_⟩,
    ⟨_, _, puts_mem _ _ hn hg hc ("errorline", "1", .int (ps.map fun p => ((Error.parse p.err).2.1 : ℕ)))
      (by simp [sets, stateInts]), ?_⟩,
    ⟨_, _, puts_mem _ _ hn hg hc ("errormod", "1", .int (ps.map fun p => ((Error.parse p.err).2.2 : ℕ)))
      (by simp [sets, stateInts]), ?_⟩⟩ <;> rw [get, hpar]

/-- Without markers no data set is written. -/
theorem empty : writeState [] = .ok newGroup := by
  rw [writeState_eq (fun _ => 0) [] (by simp),
    puts_empty _ _ (fun _ _ => rfl) (fun s hs => by simpa using sets_length _ _ s hs)]

/-! ## The hypotheses can be met -/

noncomputable def sample : Particle.State where
  prt := ⟨6, 1, 0⟩
  p := ⟨1, 2, 3⟩
  gc := ⟨⟨6, 1, 0⟩, 1, 2, 3⟩
  mass := 4 * amu
  charge := 2 * e
  anum := 4
  znum := 2
  weight := 1
  time := 0
  mileage := 1
  cputime := 1
  rho := 0
  theta := 0
  id := 5
  endcond := 8
  walltile := 3
  B := ⟨⟨1, 0, 0, 0⟩, ⟨5, 0, 0, 0⟩, ⟨0, 0, 0, 0⟩⟩
  err := Error.raise 3 100 22

example : [sample, { sample with id := 6 }] ≠ [] ∧ Charged [sample, { sample with id := 6 }] ∧
    sample.err = Error.raise 3 100 22 := by
  refine ⟨by simp, ?_, rfl⟩
  intro p hp
  simp only [List.mem_cons, List.not_mem_nil, or_false] at hp
  rcases hp with rfl | rfl <;> exact ⟨2, by simp [sample], by norm_num⟩

end Ascot.C121
