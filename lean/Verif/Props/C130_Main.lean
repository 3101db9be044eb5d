import Verif.Model.AscotMain
import Verif.Props.C55_C66_MathC
import Verif.Lemmas.Mpi
import Mathlib.Data.List.Basic
import Mathlib.Tactic.Ring

/-!
# C130: what a run of `ascot5_main` leaves behind

A run with a QID that is not in the output file leaves one new group, with the initial and the final
states of all markers in the order of the input and with all diagnostics, touches nothing else, and
ends with a summary that counts every end condition and every error (`serial`).  A run that is split
by `--mpi_size` and `--mpi_rank` over several processes leaves in the output files together every
marker once (`split_partial`).  But then the summary is made from more markers than the process has,
which is undefined (`split_violation`), and so is what happens after the run group could
not be made (`taken_violation`), or if the rank is not below the size (`rank_violation`).
-/
set_option linter.unusedSectionVars false
set_option linter.unusedSimpArgs false
namespace Ascot.C130
open Ascot.AscotMain
open Ascot.RunFile (File Kind Grp initResults writeActive writeIn putItem locate)
variable {M S X : Type}

theorem write_run {f : File (Stored S X)} {q : String} {g : Grp (Stored S X)}
    (ha : f.active = some q) (hg : f.groups .run q = some g) (n : String) (c : Stored S X) :
    writeActive f n c = match g.items n with
      | some _ => none
      | none => some (f.setGrp .run q ⟨g.attrs, fun x => if x = n then some c else g.items x⟩) := by
  simp only [writeActive, locate, ha, hg, Option.isSome_some, if_true, writeIn, putItem]
  cases g.items n <;> rfl

/-- The groups of a file are those of another but for one run of `ascot5_main`, which is active. -/
structure Only (f0 f : File (Stored S X)) (q : String) (g : Grp (Stored S X)) : Prop where
  active : f.active = some q
  here : f.groups .run q = some g
  others : ∀ k q', ¬ (k = .run ∧ q' = q) → f.groups k q' = f0.groups k q'
  top : f.top = f0.top

theorem Only.set {f0 f : File (Stored S X)} {q : String} {g : Grp (Stored S X)}
    (h : Only f0 f q g) (g' : Grp (Stored S X)) : Only f0 (f.setGrp .run q g') q g' :=
  ⟨h.active, by simp [File.setGrp], fun k q' hk => by
    simp only [File.setGrp, if_neg hk]; exact h.others k q' hk, h.top⟩

theorem Only.diags {f0 : File (Stored S X)} {q : String} : ∀ (l : List (String × X))
    {f : File (Stored S X)} {g : Grp (Stored S X)}, Only f0 f q g →
    Only f0 (writeDiags f l) q
      ⟨g.attrs, fun n => (g.items n).or ((l.lookup n).map Stored.diag)⟩ := by
  intro l
  induction l with
  | nil => intro f g h; simpa [writeDiags] using h
  | cons x l ih =>
    obtain ⟨n, d⟩ := x
    intro f g h
    have hw := write_run h.active h.here n (Stored.diag d)
    cases hn : g.items n with
    | some y =>
      simp only [hn] at hw
      simp only [writeDiags, hw, Option.getD_none]
      have := ih h
      convert this using 3
      rename_i m
      by_cases hm : m = n
      · subst hm; simp [hn]
      · have : (m == n) = false := by simp [hm]
        simp [List.lookup, this]
    | none =>
      simp only [hn] at hw
      simp only [writeDiags, hw, Option.getD_some]
      have := ih (h.set ⟨g.attrs, fun x => if x = n then some (.diag d) else g.items x⟩)
      convert this using 3
      rename_i m
      by_cases hm : m = n
      · subst hm; simp [hn, List.lookup]
      · have : (m == n) = false := by simp [hm]
        simp [List.lookup, this, hm]

/-- What the run group should hold. -/
def contents (P : Parts M S X) (attrs : String → Option String) (ps : List S) :
    Grp (Stored S X) where
  attrs := attrs
  items := fun n =>
    if n = "inistate" then some (.states ps)
    else if n = "endstate" then some (.states (P.simulate ps))
    else ((P.diags ps).lookup n).map Stored.diag

/-- The course of the program for the states it starts with. -/
theorem main_eq (P : Parts M S X) (f0 : File (Stored S X)) (ms : List M) (qid : String)
    (attrs : String → Option String) (sizeArg rankArg : Int) (u c : Nat → Int) (ps : List S)
    (hp : prepare P ms (ranks sizeArg rankArg).1 (ranks sizeArg rankArg).2.1 = some ps)
    (hq : f0.groups .run qid = none) :
    ∃ f, Only f0 f qid (contents P attrs ps) ∧
      main P f0 ms qid attrs sizeArg rankArg u c =
        match printSummary P (P.simulate ps) ms.length u c with
        | none => .ub f
        | some s => .done f s := by
  set f1 : File (Stored S X) :=
    { f0.setGrp .run qid ⟨attrs, fun _ => none⟩ with active := some qid } with hf1
  have h1 : initResults f0 .run qid attrs = some f1 := by simp [initResults, hq, hf1]
  have o1 : Only f0 f1 qid ⟨attrs, fun _ => none⟩ :=
    ⟨rfl, by simp [hf1, File.setGrp], fun k q' hk => by simp [hf1, File.setGrp, hk], rfl⟩
  have h2 := write_run o1.active o1.here "inistate" (Stored.states ps)
  simp only at h2
  have o2 := o1.set ⟨attrs, fun x => if x = "inistate" then some (Stored.states ps) else none⟩
  have h3 := write_run o2.active o2.here "endstate" (Stored.states (P.simulate ps))
  simp only [String.reduceEq, if_false] at h3
  have o3 := o2.set ⟨attrs, fun x => if x = "endstate" then some (Stored.states (P.simulate ps))
    else if x = "inistate" then some (Stored.states ps) else none⟩
  have o4 := o3.diags (P.diags ps)
  have hc : (⟨attrs, fun n => (if n = "endstate" then some (Stored.states (P.simulate ps))
      else if n = "inistate" then some (Stored.states ps) else none).or
        (((P.diags ps).lookup n).map Stored.diag)⟩ : Grp (Stored S X)) = contents P attrs ps := by
    unfold contents
    congr 1
    funext n
    by_cases hn1 : n = "inistate"
    · subst hn1; simp
    · by_cases hn2 : n = "endstate"
      · subst hn2; simp
      · simp [hn1, hn2]
  simp only [hc] at o4
  refine ⟨_, o4, ?_⟩
  unfold main
  simp only [hp, h1, h2, h3]
  rfl

/-! ## One process -/

theorem prepare_all (P : Parts M S X) (ms : List M) :
    prepare P ms 0 1 = some (ms.map P.toState) := by
  simp [prepare, myParticles]

/-- One process.  All markers are in the group of the run, in order; the diagnostics are there, each
under its name; the other groups are as before; the summary counts all markers. -/
theorem serial (P : Parts M S X) (hsim : ∀ ps, (P.simulate ps).length = ps.length)
    (f0 : File (Stored S X)) (ms : List M) (hm : ms ≠ []) (qid : String)
    (attrs : String → Option String) (sizeArg rankArg : Int) (hs : sizeArg ≤ 0)
    (u c : Nat → Int) (hq : f0.groups .run qid = none) :
    ∃ f s, main P f0 ms qid attrs sizeArg rankArg u c = .done f s ∧
      (∃ g, f.groups .run qid = some g ∧ g.attrs = attrs ∧
        g.items "inistate" = some (.states (ms.map P.toState)) ∧
        g.items "endstate" = some (.states (P.simulate (ms.map P.toState))) ∧
        ∀ n, n ≠ "inistate" → n ≠ "endstate" →
          g.items n = ((P.diags (ms.map P.toState)).lookup n).map Stored.diag) ∧
      (∀ k q, ¬ (k = .run ∧ q = qid) → f.groups k q = f0.groups k q) ∧ f.top = f0.top ∧
      Ascot.C75.Tally ((P.simulate (ms.map P.toState)).map P.endcond) (fun _ => True) s.endconds ∧
      Ascot.C75.Tally ((P.simulate (ms.map P.toState)).map P.err) (fun v => v ≠ 0) s.errors ∧
      (s.noneAborted = true ↔ ∀ p ∈ P.simulate (ms.map P.toState), P.err p = 0) := by
  have hr : ranks sizeArg rankArg = (0, 1, 0) := by simp [ranks, hs]
  obtain ⟨f, ho, e⟩ := main_eq P f0 ms qid attrs sizeArg rankArg u c (ms.map P.toState)
    (by rw [hr]; exact prepare_all P ms) hq
  have hlen : (P.simulate (ms.map P.toState)).length = ms.length := by simp [hsim]
  have htake : (P.simulate (ms.map P.toState)).take ms.length = P.simulate (ms.map P.toState) := by
    rw [← hlen]; exact List.take_length
  obtain ⟨s, e1, e2, e3, e4⟩ := Ascot.C75.summary_spec
    ((P.simulate (ms.map P.toState)).map P.endcond) ((P.simulate (ms.map P.toState)).map P.err) u c
    (by simp) (by
      intro h
      have := congrArg List.length h
      simp only [List.length_map, hlen, List.length_nil] at this
      exact hm (List.length_eq_zero_iff.mp this))
  have hps : printSummary P (P.simulate (ms.map P.toState)) ms.length u c = some s := by
    unfold printSummary
    rw [if_pos (le_of_eq hlen.symm), htake, e1]
  rw [hps] at e
  refine ⟨f, s, e, ⟨_, ho.here, rfl, by simp [contents], by simp [contents], ?_⟩, ho.others, ho.top,
    e2, e3, ?_⟩
  · intro n h1 h2; simp [contents, h1, h2]
  · rw [e4]; simp

/-! ## Several processes -/

theorem my_eq (n r N : ℕ) (hr : r < N) : myParticles n r N =
    (((Mpi.myParticles n r N).1 : Int), ((Mpi.myParticles n r N).2 : Int)) := by
  have hd : (n : Int).tdiv N = ((n / N : ℕ) : Int) := (Int.ofNat_tdiv n N).symm
  have hle : r * (n / N) ≤ n := by
    calc r * (n / N) ≤ N * (n / N) := Nat.mul_le_mul_right _ (by omega)
      _ ≤ n := Nat.mul_div_le n N
  have hc : ((r : Int) = (N : Int) - 1) ↔ r = N - 1 := by omega
  simp only [myParticles, Mpi.myParticles, hd]
  by_cases h : r = N - 1
  · rw [if_pos (hc.mpr h), if_pos h]
    push_cast [hle]; rfl
  · rw [if_neg (fun h' => h (hc.mp h')), if_neg h]
    push_cast; rfl

/-- The markers of one of the processes. -/
def block (ms : List M) (N r : ℕ) : List M :=
  (ms.drop (Mpi.myParticles ms.length r N).1).take (Mpi.myParticles ms.length r N).2

theorem my_within (n r N : ℕ) (hr : r < N) :
    (Mpi.myParticles n r N).1 + (Mpi.myParticles n r N).2 ≤ n := by
  have h1 : r * (n / N) + n / N ≤ n := by
    calc r * (n / N) + n / N = (r + 1) * (n / N) := by ring
      _ ≤ N * (n / N) := Nat.mul_le_mul_right _ (by omega)
      _ ≤ n := Nat.mul_div_le n N
  simp only [Mpi.myParticles]
  generalize n / N = k at *
  have h2 : r * k ≤ n := by omega
  split_ifs <;> omega

theorem prepare_block (P : Parts M S X) (ms : List M) (N r : ℕ) (hr : r < N) :
    prepare P ms r N = some ((block ms N r).map P.toState) := by
  have h1 := my_within ms.length r N hr
  unfold prepare
  rw [my_eq ms.length r N hr]
  simp only
  rw [if_pos ⟨by omega, by omega, by exact_mod_cast h1⟩]
  simp [block]

/-- The blocks in order are the markers. -/
theorem blocks_all (ms : List M) (N : ℕ) (hN : 0 < N) : (List.range N).flatMap (block ms N) = ms := by
  have key : ∀ k, k < N → (List.range k).flatMap (block ms N) = ms.take (k * (ms.length / N)) := by
    intro k
    induction k with
    | zero => intro _; simp
    | succ k ih =>
      intro hk
      rw [List.range_succ, List.flatMap_append, ih (by omega)]
      simp only [List.flatMap_cons, List.flatMap_nil, List.append_nil, block, Mpi.myParticles,
        if_neg (show ¬ k = N - 1 by omega)]
      rw [← List.take_add]
      congr 1; ring
  obtain ⟨m, rfl⟩ : ∃ m, N = m + 1 := ⟨N - 1, by omega⟩
  have hle : m * (ms.length / (m + 1)) ≤ ms.length := by
    calc m * (ms.length / (m + 1)) ≤ (m + 1) * (ms.length / (m + 1)) :=
          Nat.mul_le_mul_right _ (by omega)
      _ ≤ ms.length := Nat.mul_div_le _ _
  rw [List.range_succ, List.flatMap_append, key m (by omega)]
  simp only [List.flatMap_cons, List.flatMap_nil, List.append_nil, block, Mpi.myParticles,
    Nat.add_sub_cancel, if_true]
  rw [← List.take_add, Nat.add_sub_cancel' hle, List.take_length]

theorem ranks_split (N r : ℕ) (hN : 0 < N) : ranks N r = ((r : Int), (N : Int), (r : Int)) := by
  simp [ranks, hN]

/-- Several processes, each with its own output file and QID.  Each leaves the initial and final states of its
markers and its diagnostics in its file, and nothing else; the initial states in the order of the ranks are
those of all markers, and if the markers are simulated independently of each other, so are the final
states. -/
theorem split_partial (P : Parts M S X) (ms : List M) (N : ℕ) (hN : 0 < N)
    (f0 : ℕ → File (Stored S X)) (qid : ℕ → String) (attrs : ℕ → String → Option String)
    (u c : Nat → Int) (hq : ∀ r, (f0 r).groups .run (qid r) = none) :
    ∃ ini : ℕ → List S, (List.range N).flatMap ini = ms.map P.toState ∧
      (∀ step, P.simulate = List.map step →
        (List.range N).flatMap (fun r => P.simulate (ini r)) = P.simulate (ms.map P.toState)) ∧
      ∀ r < N, ∀ f, f = (main P (f0 r) ms (qid r) (attrs r) N r u c).file →
        (∃ g, f.groups .run (qid r) = some g ∧ g.attrs = attrs r ∧
          g.items "inistate" = some (.states (ini r)) ∧
          g.items "endstate" = some (.states (P.simulate (ini r))) ∧
          ∀ n, n ≠ "inistate" → n ≠ "endstate" →
            g.items n = ((P.diags (ini r)).lookup n).map Stored.diag) ∧
        (∀ k q, ¬ (k = .run ∧ q = qid r) → f.groups k q = (f0 r).groups k q) ∧
        f.top = (f0 r).top := by
  have hcat : (List.range N).flatMap (fun r => (block ms N r).map P.toState) = ms.map P.toState := by
    rw [← List.map_flatMap, blocks_all ms N hN]
  refine ⟨fun r => (block ms N r).map P.toState, hcat, ?_, ?_⟩
  · intro step hs
    rw [hs, ← List.map_flatMap, hcat]
  · rintro r hr f rfl
    obtain ⟨f, ho, e⟩ := main_eq P (f0 r) ms (qid r) (attrs r) N r u c
      ((block ms N r).map P.toState)
      (by rw [ranks_split N r hN]; exact prepare_block P ms N r hr) (hq r)
    have hfile : (main P (f0 r) ms (qid r) (attrs r) N r u c).file = f := by
      rw [e]
      cases printSummary P (P.simulate ((block ms N r).map P.toState)) ms.length u c <;> rfl
    rw [hfile]
    refine ⟨⟨_, ho.here, rfl, by simp [contents], by simp [contents], ?_⟩, ho.others, ho.top⟩
    intro n h1 h2; simp [contents, h1, h2]

/-- When a run is split over two or more processes, and there are at least as many markers as
processes, then every process ends in undefined behaviour: the summary reads the states of all
markers from an array that holds only those of the process. -/
theorem split_violation (P : Parts M S X) (hsim : ∀ ps, (P.simulate ps).length = ps.length)
    (ms : List M) (N r : ℕ) (hN : 2 ≤ N) (hm : N ≤ ms.length) (hr : r < N)
    (f0 : File (Stored S X)) (qid : String) (attrs : String → Option String) (u c : Nat → Int)
    (hq : f0.groups .run qid = none) :
    ∃ f, main P f0 ms qid attrs N r u c = .ub f := by
  obtain ⟨f, -, e⟩ := main_eq P f0 ms qid attrs N r u c ((block ms N r).map P.toState)
    (by rw [ranks_split N r (by omega)]; exact prepare_block P ms N r hr) hq
  have hdiv : 1 ≤ ms.length / N := by
    rw [Nat.le_div_iff_mul_le (by omega)]; omega
  have h2 : 2 * (ms.length / N) ≤ ms.length :=
    (Nat.mul_le_mul_right _ hN).trans (Nat.mul_div_le _ _)
  have hlt : (block ms N r).length < ms.length := by
    have : (block ms N r).length ≤ (Mpi.myParticles ms.length r N).2 := by
      simp only [block, List.length_take]; exact Nat.min_le_left _ _
    refine lt_of_le_of_lt this ?_
    simp only [Mpi.myParticles]
    split_ifs with h
    · have : 1 ≤ r * (ms.length / N) := Nat.one_le_iff_ne_zero.mpr (by
        apply Nat.mul_ne_zero <;> omega)
      omega
    · omega
  have hs : printSummary P (P.simulate ((block ms N r).map P.toState)) ms.length u c = none := by
    unfold printSummary
    rw [if_neg]
    simp only [hsim, List.length_map]
    omega
  rw [hs] at e
  exact ⟨f, e⟩

/-- If there is a run with this QID, the program does not end in an orderly way: the input markers are
freed twice.  The file stays as it is. -/
theorem taken_violation (P : Parts M S X) (ms : List M) (f0 : File (Stored S X)) (qid : String)
    (attrs : String → Option String) (sizeArg rankArg : Int) (u c : Nat → Int)
    (hq : (f0.groups .run qid).isSome) :
    main P f0 ms qid attrs sizeArg rankArg u c = .ub f0 := by
  obtain ⟨g, hg⟩ := Option.isSome_iff_exists.mp hq
  unfold main
  cases hp : prepare P ms (ranks sizeArg rankArg).1 (ranks sizeArg rankArg).2.1 with
  | none => simp only [hp]
  | some ps => simp only [hp, initResults, hg]

/-- A rank that is not below the size is not noticed: with as many markers as processes the program reads
markers that do not exist. -/
theorem rank_violation (P : Parts M S X) (ms : List M) (hm : ms ≠ []) (f0 : File (Stored S X))
    (qid : String) (attrs : String → Option String) (r : ℕ) (hr : ms.length ≤ r)
    (u c : Nat → Int) : main P f0 ms qid attrs ms.length r u c = .ub f0 := by
  have hpos : 0 < ms.length := List.length_pos_iff.mpr hm
  have hd : ((ms.length : Int)).tdiv ms.length = 1 := Int.tdiv_self (by omega)
  have hp : prepare P ms r ms.length = none := by
    unfold prepare
    simp only [myParticles, hd]
    rw [if_neg (show ¬ ((r : Int) = (ms.length : Int) - 1) by omega), if_neg]
    omega
  unfold main
  rw [ranks_split ms.length r hpos]
  simp only [hp]

/-- Parts of a small program: markers are numbers, all end in the same way. -/
def parts : Parts ℕ ℕ ℕ := ⟨fun m => m, fun ps => ps.map (· + 1), fun ps => [("orbit", ps.length)], fun _ => 1, fun _ => 0⟩

example : (∀ ps, (parts.simulate ps).length = ps.length) ∧
    (File.empty : File (Stored ℕ ℕ)).groups .run "0000000001" = none ∧
    parts.simulate = List.map (· + 1) ∧ 2 ≤ [7, 8, 9].length :=
  ⟨fun ps => by simp [parts], rfl, rfl, by decide⟩

end Ascot.C130
