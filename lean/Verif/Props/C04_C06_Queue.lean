import Verif.Lemmas.Queue
import Mathlib.Data.Fintype.Basic

/-!
# C04, C05, C06: the marker queue

`Exec ops skip n L slots evs s`: starting from the marker states `slots`, some
interleaving of the threads (`T`, each with `L` lanes) produced the events `evs`
and the state `s`.  The specification of a marker's life is in `Spec/Queue.lean`.
-/
namespace Ascot.C04
open Ascot.Queue

variable {σ Λ ε T : Type} [DecidableEq T]

/-- In every reachable state of every interleaving, the history of each marker is a
prefix of one of the three possible lives: in particular it is claimed at most
once, loaded into at most one lane, stored at most once and by that lane; its slot
holds what that life says; and only markers of the queue have a history. -/
theorem marker_life (ops : Ops σ Λ ε) (skip : Bool) (n L : Nat) (slots : Nat → σ)
    (evs : List (Event T Λ ε)) (s : St σ Λ T) (h : Exec ops skip n L slots evs s) (k : Nat) :
    Life ops skip k (slots k) (eventsOf k evs) (s.slot k) ∧ (n ≤ k → eventsOf k evs = []) := by
  refine ⟨h.inv.life k, fun hk => ?_⟩
  by_contra hc
  exact absurd (h.inv.small k hc).1 (by omega)

/-- Read-off of `marker_life`: two claims of the same marker in a history are the
same position of the history. -/
theorem claimed_once (ops : Ops σ Λ ε) (skip : Bool) (n L : Nat) (slots : Nat → σ)
    (evs : List (Event T Λ ε)) (s : St σ Λ T) (h : Exec ops skip n L slots evs s)
    (a b : Nat) (t t' : T) (i i' k : Nat)
    (ha : evs[a]? = some (.claim t i k)) (hb : evs[b]? = some (.claim t' i' k)) : a = b := by
  have hl := h.inv.life k
  have hcount : ((eventsOf k evs).countP fun e => match e with | .claim .. => true | _ => false) ≤ 1 := by
    generalize eventsOf k evs = es at hl
    generalize s.slot k = v at hl
    cases hl with
    | waiting => simp
    | claimed => simp
    | loaded => simp
    | finished hf => cases hf <;> simp
  by_contra hne
  obtain ⟨c, d, hcd, hc, hd⟩ : ∃ c d, c < d ∧ (∃ t i, evs[c]? = some (Event.claim t i k)) ∧
      (∃ t i, evs[d]? = some (Event.claim t i k)) := by
    rcases Nat.lt_or_gt_of_ne hne with h1 | h1
    · exact ⟨a, b, h1, ⟨t, i, ha⟩, ⟨t', i', hb⟩⟩
    · exact ⟨b, a, h1, ⟨t', i', hb⟩, ⟨t, i, ha⟩⟩
  obtain ⟨tc, ic, hc⟩ := hc
  obtain ⟨td, id, hd⟩ := hd
  have hsplit : evs = evs.take d ++ evs.drop d := (List.take_append_drop d evs).symm
  have h1 : Event.claim tc ic k ∈ evs.take d := by
    apply List.mem_of_getElem? (i := c); rw [List.getElem?_take_of_lt hcd]; exact hc
  have h2 : Event.claim td id k ∈ evs.drop d := by
    apply List.mem_of_getElem? (i := 0); rw [List.getElem?_drop]; simpa using hd
  have : 2 ≤ (eventsOf k evs).countP fun e => match e with | .claim .. => true | _ => false := by
    unfold eventsOf
    rw [hsplit, List.filter_append, List.countP_append]
    have p1 : 0 < ((evs.take d).filter fun e => e.marker == k).countP
        fun e => match e with | .claim .. => true | _ => false := by
      rw [List.countP_pos_iff]
      exact ⟨_, List.mem_filter.2 ⟨h1, by simp [Event.marker]⟩, rfl⟩
    have p2 : 0 < ((evs.drop d).filter fun e => e.marker == k).countP
        fun e => match e with | .claim .. => true | _ => false := by
      rw [List.countP_pos_iff]
      exact ⟨_, List.mem_filter.2 ⟨h2, by simp [Event.marker]⟩, rfl⟩
    omega
  omega

/-- At no time do two lanes (of the same or of different threads) hold the same marker. -/
theorem lanes_distinct (ops : Ops σ Λ ε) (skip : Bool) (n L : Nat) (slots : Nat → σ)
    (evs : List (Event T Λ ε)) (s : St σ Λ T) (h : Exec ops skip n L slots evs s)
    (t t' : T) (i i' : Nat) (x y : Lane Λ) (hx : s.lane t i = some x)
    (hy : s.lane t' i' = some y) (hk : x.idx = y.idx) : t = t' ∧ i = i' := by
  obtain ⟨l, h1⟩ := h.inv.held t i x hx
  obtain ⟨l', h2⟩ := h.inv.held t' i' y hy
  rw [hk, h2] at h1
  simp at h1
  exact ⟨h1.1.1.symm, h1.1.2.symm⟩

end Ascot.C04

namespace Ascot.C05
open Ascot.Queue

variable {σ Λ ε T : Type} [DecidableEq T] [Fintype T] [Nonempty T]

theorem completes (ops : Ops σ Λ ε) (skip : Bool) (n L : Nat) (slots : Nat → σ)
    (evs : List (Event T Λ ε)) (s : St σ Λ T) (h : Exec ops skip n L slots evs s)
    (hL : 0 < L) (hdone : ∀ t, s.pc t = .done)
    (hyp : skip = true ∨ ∀ k < n, ops.ended (slots k) = false) :
    s.finished = n ∧
      ∀ k < n, Finished ops skip k (slots k) (eventsOf k evs) (s.slot k) := by
  have hI := h.inv
  have h3 := h.inv3 hyp
  have hn : n ≤ s.next := by
    obtain ⟨t⟩ := ‹Nonempty T›
    exact h.inv2 t 0 (by simp [hdone, pos, hL]) (h3.2 t 0 (hdone t))
  have hall : ∀ k < n, Finished ops skip k (slots k) (eventsOf k evs) (s.slot k) := by
    intro k hk
    have hne := hI.free k hk (by omega)
    have hl := hI.life k
    generalize hes : eventsOf k evs = es at hl hne ⊢
    generalize s.slot k = v at hl ⊢
    cases hl with
    | waiting => exact absurd rfl hne
    | claimed t i => have := hI.got' t i k hes; rw [hdone t] at this; cases this
    | loaded t i l =>
      obtain ⟨x, hx, _⟩ := hI.held' t i k l hes
      rw [h3.2 t i (hdone t)] at hx; cases hx
    | finished hf => exact hf
  refine ⟨?_, hall⟩
  have hc := h.count
  rw [retires_eq (fun k hk => (hI.small k hk).1) hall] at hc
  have : ∑ t, owes (s.pc t) = 0 := by simp [hdone, owes]
  omega

/-- Full-orbit mode: when all threads have left the main loop, the finished counter
equals the number of markers and every marker was finished exactly once in one of
the three ways of `Finished`, which also says what its slot contains. -/
theorem fo_all_finished (ops : Ops σ Λ ε) (n L : Nat) (slots : Nat → σ)
    (evs : List (Event T Λ ε)) (s : St σ Λ T) (h : Exec ops true n L slots evs s)
    (hL : 0 < L) (hdone : ∀ t, s.pc t = .done) :
    s.finished = n ∧
      ∀ k < n, Finished ops true k (slots k) (eventsOf k evs) (s.slot k) :=
  completes ops true n L slots evs s h hL hdone (.inl rfl)

omit [Fintype T] [Nonempty T] in
/-- Markers that already had an end condition are not simulated and their slot is as
it was. -/
theorem fo_ended_untouched (ops : Ops σ Λ ε) (n L : Nat) (slots : Nat → σ)
    (evs : List (Event T Λ ε)) (s : St σ Λ T) (h : Exec ops true n L slots evs s)
    (k : Nat) (hend : ops.ended (slots k) = true) :
    s.slot k = slots k ∧ ∀ t i l, Event.load t i k l ∉ evs := by
  have hmem : ∀ t i l, Event.load t i k l ∈ evs → Event.load t i k l ∈ eventsOf k evs := by
    intro t i l hm; simp [eventsOf, hm, Event.marker]
  have hl := h.inv.life k
  generalize eventsOf k evs = es at hl hmem
  generalize s.slot k = v at hl ⊢
  cases hl with
  | waiting => exact ⟨rfl, fun t i l hm => by simpa using hmem t i l hm⟩
  | claimed => exact ⟨rfl, fun t i l hm => by simpa using hmem t i l hm⟩
  | loaded _ _ _ _ h2 => rw [hend] at h2; simp at h2
  | finished hf =>
    cases hf with
    | skipped => exact ⟨rfl, fun t i l hm => by simpa using hmem t i l hm⟩
    | failed _ _ _ _ h2 => rw [hend] at h2; simp at h2
    | simulated _ _ _ _ _ h2 => rw [hend] at h2; simp at h2

omit [Fintype T] [Nonempty T] in
/-- No deadlock in the queue: a thread that has not left can always take a step. -/
theorem progress (ops : Ops σ Λ ε) (skip : Bool) (n L : Nat) (slots : Nat → σ)
    (evs : List (Event T Λ ε)) (s : St σ Λ T) (h : Exec ops skip n L slots evs s)
    (t : T) (ht : s.pc t ≠ .done) : ∃ o s', Step ops skip n L s o s' ∧ s'.pc t ≠ s.pc t := by
  have hle : ∀ i, s.pc t = .cyc i → i ≤ L := h.cyc_le t
  cases hp : s.pc t with
  | cyc i =>
    rcases Nat.lt_or_ge i L with hi | hi
    · cases hl : s.lane t i with
      | none => exact ⟨_, _, .takeDummy s t i hp hi hl, by simp⟩
      | some x =>
        cases hr : x.running with
        | true => exact ⟨_, _, .keep s t i x hp hi hl hr, by simp⟩
        | false => exact ⟨_, _, .unload s t i x hp hi hl hr, by simp⟩
    · obtain rfl : i = L := le_antisymm (hle i hp) hi
      by_cases hr : ∃ j < i, ∃ x, s.lane t j = some x ∧ x.running = true
      · exact ⟨_, _, .loop s t hp hr, by simp⟩
      · refine ⟨_, _, .exit s t hp ?_, by simp⟩
        intro j hj x hx
        by_contra hc
        exact hr ⟨j, hj, x, hx, by simpa using hc⟩
  | claim i =>
    rcases Nat.lt_or_ge s.next n with hn | hn
    · exact ⟨_, _, .claim s t i hp hn, by simp⟩
    · exact ⟨_, _, .claimEmpty s t i hp hn, by simp⟩
  | got i k =>
    by_cases hsk : skip = true ∧ ops.ended (s.slot k) = true
    · exact ⟨_, _, .skip s t i k hp hsk.1 hsk.2, by simp⟩
    · have h' : skip = true → ops.ended (s.slot k) = false := by
        intro h1; by_contra hc; exact hsk ⟨h1, by simpa using hc⟩
      cases hl : ops.load (s.slot k) with
      | error e => exact ⟨_, _, .fail s t i k e hp h' hl, by simp⟩
      | ok l => exact ⟨_, _, .load s t i k l hp h' hl, by simp⟩
  | fin i => exact ⟨_, _, .count s t i hp, by simp⟩
  | sim =>
    refine ⟨_, _, .advance s t (s.lane t) hp ?_, by simp⟩
    intro i
    cases s.lane t i with
    | none => rfl
    | some x => by_cases hr : x.running <;> simp [hr]
  | done => exact absurd hp ht

end Ascot.C05

namespace Ascot.C06
open Ascot.Queue

variable {σ Λ ε T : Type} [DecidableEq T] [Fintype T] [Nonempty T]

/-- Guiding-center and field-line modes, if no marker of the queue has an end
condition at the start: the same conclusion as for full orbits.  Missing from C06:
markers that already ended, see `gc_leaves_markers`. -/
theorem gc_all_finished_partial (ops : Ops σ Λ ε) (n L : Nat) (slots : Nat → σ)
    (evs : List (Event T Λ ε)) (s : St σ Λ T) (h : Exec ops false n L slots evs s)
    (hL : 0 < L) (hdone : ∀ t, s.pc t = .done)
    (hfresh : ∀ k < n, ops.ended (slots k) = false) :
    s.finished = n ∧
      ∀ k < n, Finished ops false k (slots k) (eventsOf k evs) (s.slot k) :=
  C05.completes ops false n L slots evs s h hL hdone (.inr hfresh)

/-- C06 fails as stated: with one thread of `L` lanes and a queue whose first `L`
markers already have an end condition, the thread leaves the main loop without any
of the later markers having been touched; nothing is counted as finished. -/
theorem gc_leaves_markers (ops : Ops σ Λ ε) (n L : Nat) (slots : Nat → σ) (hn : L < n)
    (hended : ∀ k < L, ops.ended (slots k) = true)
    (hload : ∀ k < L, ∃ l, ops.load (slots k) = .ok l) :
    ∃ (evs : List (Event Unit Λ ε)) (s : St σ Λ Unit), Exec ops false n L slots evs s ∧
      (∀ t, s.pc t = .done) ∧ s.finished = 0 ∧
      ∀ k, L ≤ k → eventsOf k evs = [] ∧ s.slot k = slots k := by
  have key : ∀ j ≤ L, ∃ (evs : List (Event Unit Λ ε)) (s : St σ Λ Unit),
      Exec ops false n L slots evs s ∧ s.pc () = .cyc j ∧ s.finished = 0 ∧ s.next = j ∧
      s.slot = slots ∧ (∀ i x, s.lane () i = some x → i < j ∧ x.running = false) ∧
      (∀ e ∈ evs, e.marker < j) := by
    intro j
    induction j with
    | zero => intro _; exact ⟨[], init slots, .start, rfl, rfl, rfl, rfl, by simp [init], by simp⟩
    | succ j ih =>
      intro hj
      obtain ⟨evs, s, he, hp, hf, hnx, hsl, hla, hev⟩ := ih (by omega)
      have hnone : s.lane () j = none := by
        cases hx : s.lane () j with
        | none => rfl
        | some x => exact absurd (hla j x hx).1 (lt_irrefl _)
      obtain ⟨l, hl⟩ := hload j (by omega)
      have e1 := he.quiet (.takeDummy s () j hp (by omega) hnone)
      have e2 := e1.event (.claim _ () j (by simp) (by simp; omega))
      have e3 := e2.event (.load _ () j s.next l (by simp) (by simp) (by simp [hnx, hsl, hl]))
      refine ⟨_, _, e3, by simp, by simp [hf], by simp [hnx], by simp [hsl], ?_, ?_⟩
      · intro i x hx
        simp only [setPc_lane, setLane_lane] at hx
        by_cases hc : i = j
        · subst hc
          simp at hx
          subst hx
          exact ⟨by omega, by simp [hnx, hsl, hended i (by omega)]⟩
        · simp [hc] at hx
          have := hla i x hx
          exact ⟨by omega, this.2⟩
      · intro e hm
        simp at hm
        rcases hm with hm | rfl | rfl
        · exact Nat.lt_succ_of_lt (hev e hm)
        · simp [Event.marker, hnx]
        · simp [Event.marker, hnx]
  obtain ⟨evs, s, he, hp, hf, hnx, hsl, hla, hev⟩ := key L le_rfl
  refine ⟨evs, _, he.quiet (.exit s () hp (fun i _ x hx => (hla i x hx).2)), by simp, hf, ?_⟩
  intro k hk
  refine ⟨?_, by simp [hsl]⟩
  rw [eventsOf, List.filter_eq_nil_iff]
  intro e hm
  have := hev e hm
  simp; omega

/-! A concrete queue for the examples: markers are `Bool` ("already ended"),
conversion always succeeds. -/

def toy : Ops Bool Unit Unit where
  ended := id
  load := fun _ => .ok ()
  setErr := fun _ s => s
  unload := fun _ _ => true

/-- With the 16 lanes of the code and 17 markers, 16 of which have ended, the last
marker is never simulated. -/
example : ∃ (evs : List (Event Unit Unit Unit)) (s : St Bool Unit Unit),
    Exec toy false 17 16 (fun k => decide (k < 16)) evs s ∧ (∀ t, s.pc t = .done) ∧
    s.finished = 0 ∧ eventsOf 16 evs = [] := by
  obtain ⟨evs, s, h1, h2, h3, h4⟩ := gc_leaves_markers toy 17 16 (fun k => decide (k < 16))
    (by decide) (by intro k hk; simpa [toy] using hk) (by intro k _; exact ⟨(), rfl⟩)
  exact ⟨evs, s, h1, h2, h3, (h4 16 le_rfl).1⟩

/-- Complete executions exist: two markers on one lane, the first already ended, in
full-orbit mode; all hypotheses of `fo_all_finished` are met. -/
example : ∃ (evs : List (Event Unit Unit Unit)) (s : St Bool Unit Unit),
    Exec toy true 2 1 (fun k => decide (k = 0)) evs s ∧ (∀ t, s.pc t = .done) ∧
    s.finished = 2 := by
  let s0 : St Bool Unit Unit := init (fun k => decide (k = 0))
  have e0 : Exec (ε := Unit) toy true 2 1 (fun k => decide (k = 0)) [] s0 := .start
  have e1 := e0.quiet (.takeDummy _ () 0 rfl (by decide) rfl)
  have e2 := e1.event (.claim _ () 0 (by simp) (by simp [s0, init]))
  have e3 := e2.event (.skip _ () 0 0 (by simp [s0, init]) rfl (by simp [s0, init, toy]))
  have e4 := e3.quiet (.count _ () 0 (by simp))
  have e5 := e4.event (.claim _ () 0 (by simp) (by simp [s0, init]))
  have e6 := e5.event (.load _ () 0 1 () (by simp [s0, init]) (by simp [s0, init, toy]) rfl)
  have e7 := e6.quiet (.loop _ () (by simp) ⟨0, by decide, ⟨1, true, ()⟩, by
    simp [setLane_lane, s0, init, toy], rfl⟩)
  have e8 := e7.quiet (.advance _ () (fun i => if i = 0 then some ⟨1, false, ()⟩ else none)
    (by simp) (by
      intro i
      by_cases hi : i = 0
      · subst hi; simp [setLane_lane, s0, init, toy]
      · simp [setLane_lane, s0, init, hi]))
  have e9 := e8.event (.unload _ () 0 ⟨1, false, ()⟩ (by simp) (by decide) (by simp) rfl)
  have e10 := e9.quiet (.count _ () 0 (by simp))
  have e11 := e10.quiet (.claimEmpty _ () 0 (by simp) (by simp [s0, init]))
  have e12 := e11.quiet (.exit _ () (by simp) (by
    intro i hi x hx
    obtain rfl : i = 0 := by omega
    simp [setLane_lane] at hx))
  exact ⟨_, _, e12, by simp, (C05.fo_all_finished _ _ _ _ _ _ e12 (by decide) (by simp)).1⟩

/-- `gc_all_finished_partial` is not vacuous either: a run with one fresh marker. -/
example : ∃ (evs : List (Event Unit Unit Unit)) (s : St Bool Unit Unit),
    Exec toy false 1 1 (fun _ => false) evs s ∧ (∀ t, s.pc t = .done) ∧
    s.finished = 1 := by
  let s0 : St Bool Unit Unit := init (fun _ => false)
  have e0 : Exec (ε := Unit) toy false 1 1 (fun _ => false) [] s0 := .start
  have e4 := e0.quiet (.takeDummy _ () 0 rfl (by decide) rfl)
  have e5 := e4.event (.claim _ () 0 (by simp) (by simp [s0, init]))
  have e6 := e5.event (.load _ () 0 0 () (by simp [s0, init]) (by simp) rfl)
  have e7 := e6.quiet (.loop _ () (by simp) ⟨0, by decide, ⟨0, true, ()⟩, by
    simp [setLane_lane, s0, init, toy], rfl⟩)
  have e8 := e7.quiet (.advance _ () (fun i => if i = 0 then some ⟨0, false, ()⟩ else none)
    (by simp) (by
      intro i
      by_cases hi : i = 0
      · subst hi; simp [setLane_lane, s0, init, toy]
      · simp [setLane_lane, s0, init, hi]))
  have e9 := e8.event (.unload _ () 0 ⟨0, false, ()⟩ (by simp) (by decide) (by simp) rfl)
  have e10 := e9.quiet (.count _ () 0 (by simp))
  have e11 := e10.quiet (.claimEmpty _ () 0 (by simp) (by simp [s0, init]))
  have e12 := e11.quiet (.exit _ () (by simp) (by
    intro i hi x hx
    obtain rfl : i = 0 := by omega
    simp [setLane_lane] at hx))
  exact ⟨_, _, e12, by simp, (gc_all_finished_partial _ _ _ _ _ _ e12 (by decide) (by simp)
    (by simp [toy])).1⟩

end Ascot.C06
