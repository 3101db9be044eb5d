import Verif.Spec.Queue
import Mathlib.Tactic.Common
import Mathlib.Data.List.Basic
import Mathlib.Data.List.Perm.Basic
import Mathlib.Data.List.Count
import Mathlib.Data.List.Range
import Mathlib.Algebra.BigOperators.Group.Finset.Basic

set_option linter.unusedSectionVars false
set_option linter.unusedSimpArgs false

namespace Ascot.Queue

variable {σ Λ ε T : Type} [DecidableEq T]

theorem eventsOf_append (k : Nat) (evs : List (Event T Λ ε)) (e : Event T Λ ε) :
    eventsOf k (evs ++ [e]) = if e.marker = k then eventsOf k evs ++ [e] else eventsOf k evs := by
  unfold eventsOf
  rw [List.filter_append]
  by_cases h : e.marker = k <;> simp [h]

/-- Core invariant: events, slots, program counters and lanes agree about who owns
each marker. -/
structure Inv (ops : Ops σ Λ ε) (skip : Bool) (n L : Nat) (slots : Nat → σ)
    (evs : List (Event T Λ ε)) (s : St σ Λ T) : Prop where
  life : ∀ k, Life ops skip k (slots k) (eventsOf k evs) (s.slot k)
  small : ∀ k, eventsOf k evs ≠ [] → k < n ∧ k < s.next
  free : ∀ k < n, k < s.next → eventsOf k evs ≠ []
  got : ∀ t i k, s.pc t = .got i k → eventsOf k evs = [.claim t i k]
  got' : ∀ t i k, eventsOf k evs = [.claim t i k] → s.pc t = .got i k
  held : ∀ t i x, s.lane t i = some x →
    ∃ l, eventsOf x.idx evs = [.claim t i x.idx, .load t i x.idx l]
  held' : ∀ t i k l, eventsOf k evs = [.claim t i k, .load t i k l] →
    ∃ x, s.lane t i = some x ∧ x.idx = k
  busy : ∀ t i, (s.pc t = .claim i ∨ s.pc t = .fin i ∨ ∃ k, s.pc t = .got i k) →
    i < L ∧ s.lane t i = none
  lanes : ∀ t i x, s.lane t i = some x → i < L

@[simp] theorem setPc_slot (s : St σ Λ T) (t p) : (s.setPc t p).slot = s.slot := rfl
@[simp] theorem setPc_next (s : St σ Λ T) (t p) : (s.setPc t p).next = s.next := rfl
@[simp] theorem setPc_fin (s : St σ Λ T) (t p) : (s.setPc t p).finished = s.finished := rfl
@[simp] theorem setPc_lane (s : St σ Λ T) (t p) : (s.setPc t p).lane = s.lane := rfl
@[simp] theorem setPc_pc (s : St σ Λ T) (t p) :
    (s.setPc t p).pc = Function.update s.pc t p := rfl
@[simp] theorem setLane_slot (s : St σ Λ T) (t i l) : (s.setLane t i l).slot = s.slot := rfl
@[simp] theorem setLane_next (s : St σ Λ T) (t i l) : (s.setLane t i l).next = s.next := rfl
@[simp] theorem setLane_fin (s : St σ Λ T) (t i l) : (s.setLane t i l).finished = s.finished := rfl
@[simp] theorem setLane_pc (s : St σ Λ T) (t i l) : (s.setLane t i l).pc = s.pc := rfl
@[simp] theorem setSlot_slot (s : St σ Λ T) (k x) :
    (s.setSlot k x).slot = Function.update s.slot k x := rfl
@[simp] theorem setSlot_next (s : St σ Λ T) (k x) : (s.setSlot k x).next = s.next := rfl
@[simp] theorem setSlot_fin (s : St σ Λ T) (k x) : (s.setSlot k x).finished = s.finished := rfl
@[simp] theorem setSlot_pc (s : St σ Λ T) (k x) : (s.setSlot k x).pc = s.pc := rfl
@[simp] theorem setSlot_lane (s : St σ Λ T) (k x) : (s.setSlot k x).lane = s.lane := rfl

theorem setLane_lane (s : St σ Λ T) (t i l t' i') :
    (s.setLane t i l).lane t' i' = if t' = t ∧ i' = i then l else s.lane t' i' := by
  unfold St.setLane
  by_cases ht : t' = t
  · subst ht
    by_cases hi : i' = i
    · subst hi; simp
    · simp [hi]
  · simp [ht]

theorem Life.slot_of_claimed {ops : Ops σ Λ ε} {skip k s v} {t : T} {i}
    (h : Life ops skip k s [.claim t i k] v) : v = s := by
  cases h with
  | claimed => rfl
  | finished h => cases h

theorem Life.slot_of_loaded {ops : Ops σ Λ ε} {skip k s v l} {t : T} {i}
    (h : Life ops skip k s [.claim t i k, .load t i k l] v) :
    v = s ∧ ops.load s = .ok l ∧ (skip = true → ops.ended s = false) := by
  cases h with
  | loaded _ _ _ h1 h2 => exact ⟨rfl, h1, h2⟩
  | finished h => cases h

theorem Life.slot_of_nil {ops : Ops σ Λ ε} {skip k s v}
    (h : Life (T := T) ops skip k s [] v) : v = s := by
  cases h with
  | waiting => rfl
  | finished h => cases h

/-- Steps without event that only move a program counter between positions that
own nothing. -/
theorem Inv.quietPc {ops : Ops σ Λ ε} {skip n L slots evs} {s : St σ Λ T}
    (h : Inv ops skip n L slots evs s) (t : T) (p : PC)
    (hold : ∀ i k, s.pc t ≠ .got i k) (hnew : ∀ i k, p ≠ .got i k)
    (hb : ∀ i, (p = .claim i ∨ p = .fin i) → i < L ∧ s.lane t i = none) :
    Inv ops skip n L slots evs (s.setPc t p) where
  life := h.life
  small := h.small
  free := h.free
  got := by
    intro t' i k hp
    by_cases ht : t' = t
    · subst ht; simp at hp; exact absurd hp (hnew i k)
    · simp [ht] at hp; exact h.got t' i k hp
  got' := by
    intro t' i k he
    have := h.got' t' i k he
    by_cases ht : t' = t
    · subst ht; exact absurd this (hold i k)
    · simpa [ht] using this
  held := h.held
  held' := h.held'
  busy := by
    intro t' i hp
    by_cases ht : t' = t
    · subst ht
      simp at hp
      rcases hp with hp | hp | ⟨k, hp⟩
      · exact hb i (.inl hp)
      · exact hb i (.inr hp)
      · exact absurd hp (hnew i k)
    · simp [ht] at hp; exact h.busy t' i hp
  lanes := h.lanes

theorem Inv.init (ops : Ops σ Λ ε) (skip n L) (slots : Nat → σ) :
    Inv ops skip n L slots ([] : List (Event T Λ ε)) (init slots) where
  life := fun k => .waiting
  small := by intro k hk; simp [eventsOf] at hk
  free := by intro k _ hk; simp [Queue.init] at hk
  got := by intro t i k hp; simp [Queue.init] at hp
  got' := by intro t i k he; simp [eventsOf] at he
  held := by intro t i x hx; simp [Queue.init] at hx
  held' := by intro t i k l he; simp [eventsOf] at he
  busy := by intro t i hp; simp [Queue.init] at hp
  lanes := by intro t i x hx; simp [Queue.init] at hx

/-- The invariant is kept by steps without event. -/
theorem Inv.step_quiet {ops : Ops σ Λ ε} {skip n L slots evs} {s s' : St σ Λ T}
    (h : Inv ops skip n L slots evs s) (hs : Step ops skip n L s none s') :
    Inv ops skip n L slots evs s' := by
  cases hs with
  | takeDummy t i hp hi hl =>
    refine h.quietPc t _ (by simp [hp]) (by simp) ?_
    intro j hj; simp at hj; subst hj; exact ⟨hi, hl⟩
  | leaveDummy t i hp hi hl hn => exact h.quietPc t _ (by simp [hp]) (by simp) (by simp)
  | keep t i x hp hi hl hr => exact h.quietPc t _ (by simp [hp]) (by simp) (by simp)
  | count t i hp =>
    have h1 : Inv ops skip n L slots evs { s with finished := s.finished + 1 } :=
      ⟨h.life, h.small, h.free, h.got, h.got', h.held, h.held', h.busy, h.lanes⟩
    refine h1.quietPc t _ (by simp [hp]) (by simp) ?_
    intro j hj; simp at hj; subst hj
    exact h.busy t _ (.inr (.inl hp))
  | claimEmpty t i hp hn =>
    have hb := h.busy t i (.inl hp)
    have hlane : ({ s with next := s.next + 1 }.setLane t i none) =
        { s with next := s.next + 1 } := by
      simp only [St.setLane]
      congr 1
      funext t'
      by_cases ht : t' = t
      · subst ht
        simp only [Function.update_self]
        rw [← hb.2, Function.update_eq_self]
      · simp [ht]
    rw [hlane]
    have h1 : Inv ops skip n L slots evs { s with next := s.next + 1 } :=
      ⟨h.life, fun k hk => ⟨(h.small k hk).1, Nat.lt_succ_of_lt (h.small k hk).2⟩,
        fun k hk _ => h.free k hk (by omega),
        h.got, h.got', h.held, h.held', h.busy, h.lanes⟩
    exact h1.quietPc t _ (by simp [hp]) (by simp) (by simp)
  | loop t hp hr => exact h.quietPc t _ (by simp [hp]) (by simp) (by simp)
  | exit t hp hr => exact h.quietPc t _ (by simp [hp]) (by simp) (by simp)
  | advance t ls hp ha =>
    have hnone : ∀ i, s.lane t i = none → ls i = none := by
      intro i hi; have := ha i; rw [hi] at this; exact this
    have hsome : ∀ i x, s.lane t i = some x → ∃ y, ls i = some y ∧ y.idx = x.idx := by
      intro i x hi
      have := ha i; rw [hi] at this
      by_cases hr : x.running = true
      · simpa [hr] using this
      · simp [hr] at this; exact ⟨x, this, rfl⟩
    have hback : ∀ i y, ls i = some y → ∃ x, s.lane t i = some x ∧ y.idx = x.idx := by
      intro i y hy
      cases hx : s.lane t i with
      | none => rw [hnone i hx] at hy; cases hy
      | some x =>
        obtain ⟨y', h1, h2⟩ := hsome i x hx
        rw [h1] at hy; cases hy; exact ⟨x, rfl, h2⟩
    have h1 : Inv ops skip n L slots evs { s with lane := Function.update s.lane t ls } := by
      refine ⟨h.life, h.small, h.free, h.got, h.got', ?_, ?_, ?_, ?_⟩
      · intro t' i x hx
        by_cases ht : t' = t
        · subst ht
          simp at hx
          obtain ⟨x0, h0, h2⟩ := hback i x hx
          rw [h2]; exact h.held t' i x0 h0
        · simp [ht] at hx; exact h.held t' i x hx
      · intro t' i k l he
        obtain ⟨x, hx, hk⟩ := h.held' t' i k l he
        by_cases ht : t' = t
        · subst ht
          obtain ⟨y, hy, hyx⟩ := hsome i x hx
          exact ⟨y, by simpa using hy, hyx.trans hk⟩
        · exact ⟨x, by simpa [ht] using hx, hk⟩
      · intro t' i hb
        have := h.busy t' i hb
        refine ⟨this.1, ?_⟩
        by_cases ht : t' = t
        · subst ht; simpa using hnone i this.2
        · simpa [ht] using this.2
      · intro t' i x hx
        by_cases ht : t' = t
        · subst ht; simp at hx
          obtain ⟨x0, h0, _⟩ := hback i x hx
          exact h.lanes t' i x0 h0
        · simp [ht] at hx; exact h.lanes t' i x hx
    exact h1.quietPc t _ (by simp [hp]) (by simp) (by simp)

/-- The invariant is kept by steps with an event. -/
theorem Inv.step_event {ops : Ops σ Λ ε} {skip n L slots evs} {s s' : St σ Λ T} {e}
    (h : Inv ops skip n L slots evs s) (hs : Step ops skip n L s (some e) s') :
    Inv ops skip n L slots (evs ++ [e]) s' := by
  cases hs with
  | claim t i hp hn =>
    have hnil : eventsOf s.next evs = [] := by
      by_contra hc; exact absurd (h.small _ hc).2 (lt_irrefl _)
    have hslot := (hnil ▸ h.life s.next).slot_of_nil
    have hev : ∀ k, eventsOf k (evs ++ [Event.claim t i s.next]) =
        if s.next = k then [Event.claim t i s.next] else eventsOf k evs := by
      intro k; rw [eventsOf_append]
      by_cases hk : s.next = k
      · subst hk; simp [Event.marker, hnil]
      · simp [Event.marker, hk]
    have hb := h.busy t i (.inl hp)
    constructor
    · intro k
      rw [hev]
      by_cases hk : s.next = k
      · subst hk; simp [hslot]; exact .claimed t i
      · simp [hk]; exact h.life k
    · intro k hk
      rw [hev] at hk
      by_cases hkn : s.next = k
      · subst hkn; simpa using hn
      · simp [hkn] at hk
        have := h.small k hk
        exact ⟨this.1, Nat.lt_succ_of_lt this.2⟩
    · intro k hk hk2
      rw [hev]
      by_cases hkn : s.next = k
      · simp [hkn]
      · simp [hkn]
        simp at hk2
        exact h.free k hk (by omega)
    · intro t' j k hpc
      rw [hev]
      by_cases ht : t' = t
      · subst ht; simp at hpc
        obtain ⟨rfl, rfl⟩ := hpc; simp
      · simp [ht] at hpc
        have := h.got t' j k hpc
        have hkn : s.next ≠ k := by rintro rfl; simp [hnil] at this
        simp [hkn, this]
    · intro t' j k he
      rw [hev] at he
      by_cases hkn : s.next = k
      · subst hkn; simp at he; obtain ⟨rfl, rfl⟩ := he; simp
      · simp [hkn] at he
        have := h.got' t' j k he
        have ht : t' ≠ t := by rintro rfl; simp [hp] at this
        simpa [ht] using this
    · intro t' j x hx
      obtain ⟨l, hl⟩ := h.held t' j x hx
      refine ⟨l, ?_⟩
      rw [hev]
      have hkn : s.next ≠ x.idx := by rintro h0; rw [← h0, hnil] at hl; cases hl
      simp [hkn, hl]
    · intro t' j k l he
      rw [hev] at he
      by_cases hkn : s.next = k
      · simp [hkn] at he
      · simp [hkn] at he; exact h.held' t' j k l he
    · intro t' j hbz
      by_cases ht : t' = t
      · subst ht
        simp at hbz
        subst hbz
        exact hb
      · simp [ht] at hbz; exact h.busy t' j hbz
    · exact h.lanes
  | unload t i x hp hi hl hr =>
    obtain ⟨l, hel⟩ := h.held t i x hl
    have hlf := h.life x.idx
    rw [hel] at hlf
    obtain ⟨hs1, hs2, hs3⟩ := hlf.slot_of_loaded
    have hev : ∀ k, eventsOf k (evs ++ [Event.unload t i x.idx x.data]) =
        if x.idx = k then [Event.claim t i x.idx, .load t i x.idx l, .unload t i x.idx x.data]
        else eventsOf k evs := by
      intro k; rw [eventsOf_append]
      by_cases hk : x.idx = k
      · subst hk; simp [Event.marker, hel]
      · simp [Event.marker, hk]
    constructor
    · intro k
      rw [hev]
      by_cases hk : x.idx = k
      · subst hk; simp [hs1]; exact .finished (.simulated t i l _ hs2 hs3)
      · simp [hk, Function.update_of_ne (Ne.symm hk)]; exact h.life k
    · intro k hk
      rw [hev] at hk
      by_cases hkn : x.idx = k
      · subst hkn; exact h.small _ (by simp [hel])
      · simp [hkn] at hk; exact h.small k hk
    · intro k hk hk2
      rw [hev]
      by_cases hkn : x.idx = k
      · simp [hkn]
      · simp [hkn]; exact h.free k hk hk2
    · intro t' j k hpc
      rw [hev]
      by_cases ht : t' = t
      · subst ht; simp at hpc
      · simp [ht] at hpc
        have := h.got t' j k hpc
        have hkn : x.idx ≠ k := by rintro rfl; simp [hel] at this
        simp [hkn, this]
    · intro t' j k he
      rw [hev] at he
      by_cases hkn : x.idx = k
      · simp [hkn] at he
      · simp [hkn] at he
        have := h.got' t' j k he
        have ht : t' ≠ t := by rintro rfl; simp [hp] at this
        simpa [ht] using this
    · intro t' j y hy
      simp only [setPc_lane, setLane_lane, setSlot_lane] at hy
      by_cases hc : t' = t ∧ j = i
      · simp [hc] at hy
      · simp [hc] at hy
        obtain ⟨l', hl'⟩ := h.held t' j y hy
        refine ⟨l', ?_⟩
        rw [hev]
        have hkn : x.idx ≠ y.idx := by
          intro h0
          rw [← h0, hel] at hl'
          simp at hl'
          exact hc ⟨hl'.1.1.symm, hl'.1.2.symm⟩
        simp [hkn, hl']
    · intro t' j k l' he
      rw [hev] at he
      by_cases hkn : x.idx = k
      · simp [hkn] at he
      · simp [hkn] at he
        obtain ⟨y, hy, hyk⟩ := h.held' t' j k l' he
        refine ⟨y, ?_, hyk⟩
        have hc : ¬ (t' = t ∧ j = i) := by
          rintro ⟨rfl, rfl⟩; rw [hl] at hy; cases hy; exact hkn hyk
        simpa [setLane_lane, hc] using hy
    · intro t' j hbz
      by_cases ht : t' = t
      · subst ht; simp at hbz; subst hbz
        exact ⟨hi, by simp [setLane_lane]⟩
      · simp [ht] at hbz
        have := h.busy t' j hbz
        exact ⟨this.1, by simp [setLane_lane, ht, this.2]⟩
    · intro t' j y hy
      simp only [setPc_lane, setLane_lane, setSlot_lane] at hy
      by_cases hc : t' = t ∧ j = i
      · simp [hc] at hy
      · simp [hc] at hy; exact h.lanes t' j y hy
  | skip t i k hp hsk hen =>
    have hel := h.got t i k hp
    have hs1 := (hel ▸ h.life k).slot_of_claimed
    have hb := h.busy t i (.inr (.inr ⟨k, hp⟩))
    have hev : ∀ k', eventsOf k' (evs ++ [Event.skip t i k]) =
        if k = k' then [Event.claim t i k, .skip t i k] else eventsOf k' evs := by
      intro k'; rw [eventsOf_append]
      by_cases hk : k = k'
      · subst hk; simp [Event.marker, hel]
      · simp [Event.marker, hk]
    constructor
    · intro k'
      rw [hev]
      by_cases hk : k = k'
      · subst hk; simp [hs1]; exact .finished (.skipped t i hsk (by rw [← hs1]; exact hen))
      · simp [hk]; exact h.life k'
    · intro k' hk
      rw [hev] at hk
      by_cases hkn : k = k'
      · subst hkn; exact h.small _ (by simp [hel])
      · simp [hkn] at hk; exact h.small k' hk
    · intro k' hk hk2
      rw [hev]
      by_cases hkn : k = k'
      · simp [hkn]
      · simp [hkn]; exact h.free k' hk hk2
    · intro t' j k' hpc
      rw [hev]
      by_cases ht : t' = t
      · subst ht; simp at hpc
      · simp [ht] at hpc
        have := h.got t' j k' hpc
        have hkn : k ≠ k' := by
          rintro rfl; rw [hel] at this; simp at this; exact ht this.1.symm
        simp [hkn, this]
    · intro t' j k' he
      rw [hev] at he
      by_cases hkn : k = k'
      · simp [hkn] at he
      · simp [hkn] at he
        have := h.got' t' j k' he
        have ht : t' ≠ t := by
          rintro rfl; rw [hp] at this; simp at this; exact hkn this.2
        simpa [ht] using this
    · intro t' j y hy
      obtain ⟨l', hl'⟩ := h.held t' j y hy
      refine ⟨l', ?_⟩
      rw [hev]
      have hkn : k ≠ y.idx := by rintro rfl; rw [hel] at hl'; simp at hl'
      simp [hkn, hl']
    · intro t' j k' l' he
      rw [hev] at he
      by_cases hkn : k = k'
      · simp [hkn] at he
      · simp [hkn] at he; exact h.held' t' j k' l' he
    · intro t' j hbz
      by_cases ht : t' = t
      · subst ht; simp at hbz; subst hbz; exact hb
      · simp [ht] at hbz; exact h.busy t' j hbz
    · exact h.lanes
  | fail t i k e hp hsk hld =>
    have hel := h.got t i k hp
    have hs1 := (hel ▸ h.life k).slot_of_claimed
    have hb := h.busy t i (.inr (.inr ⟨k, hp⟩))
    have hev : ∀ k', eventsOf k' (evs ++ [Event.fail t i k e]) =
        if k = k' then [Event.claim t i k, .fail t i k e] else eventsOf k' evs := by
      intro k'; rw [eventsOf_append]
      by_cases hk : k = k'
      · subst hk; simp [Event.marker, hel]
      · simp [Event.marker, hk]
    constructor
    · intro k'
      rw [hev]
      by_cases hk : k = k'
      · subst hk; simp [hs1]; exact .finished (.failed t i e (by rw [← hs1]; exact hld) (by rw [← hs1]; exact hsk))
      · simp [hk, Function.update_of_ne (Ne.symm hk)]; exact h.life k'
    · intro k' hk
      rw [hev] at hk
      by_cases hkn : k = k'
      · subst hkn; exact h.small _ (by simp [hel])
      · simp [hkn] at hk; exact h.small k' hk
    · intro k' hk hk2
      rw [hev]
      by_cases hkn : k = k'
      · simp [hkn]
      · simp [hkn]; exact h.free k' hk hk2
    · intro t' j k' hpc
      rw [hev]
      by_cases ht : t' = t
      · subst ht; simp at hpc
      · simp [ht] at hpc
        have := h.got t' j k' hpc
        have hkn : k ≠ k' := by
          rintro rfl; rw [hel] at this; simp at this; exact ht this.1.symm
        simp [hkn, this]
    · intro t' j k' he
      rw [hev] at he
      by_cases hkn : k = k'
      · simp [hkn] at he
      · simp [hkn] at he
        have := h.got' t' j k' he
        have ht : t' ≠ t := by
          rintro rfl; rw [hp] at this; simp at this; exact hkn this.2
        simpa [ht] using this
    · intro t' j y hy
      obtain ⟨l', hl'⟩ := h.held t' j y hy
      refine ⟨l', ?_⟩
      rw [hev]
      have hkn : k ≠ y.idx := by rintro rfl; rw [hel] at hl'; simp at hl'
      simp [hkn, hl']
    · intro t' j k' l' he
      rw [hev] at he
      by_cases hkn : k = k'
      · simp [hkn] at he
      · simp [hkn] at he; exact h.held' t' j k' l' he
    · intro t' j hbz
      by_cases ht : t' = t
      · subst ht; simp at hbz; subst hbz; exact hb
      · simp [ht] at hbz; exact h.busy t' j hbz
    · exact h.lanes
  | load t i k l hp hsk hld =>
    have hel := h.got t i k hp
    have hs1 := (hel ▸ h.life k).slot_of_claimed
    have hb := h.busy t i (.inr (.inr ⟨k, hp⟩))
    have hev : ∀ k', eventsOf k' (evs ++ [Event.load t i k l]) =
        if k = k' then [Event.claim t i k, .load t i k l] else eventsOf k' evs := by
      intro k'; rw [eventsOf_append]
      by_cases hk : k = k'
      · subst hk; simp [Event.marker, hel]
      · simp [Event.marker, hk]
    constructor
    · intro k'
      rw [hev]
      by_cases hk : k = k'
      · subst hk; simp [hs1]
        exact .loaded t i l (by rw [← hs1]; exact hld) (by rw [← hs1]; exact hsk)
      · simp [hk]; exact h.life k'
    · intro k' hk
      rw [hev] at hk
      by_cases hkn : k = k'
      · subst hkn; exact h.small _ (by simp [hel])
      · simp [hkn] at hk; exact h.small k' hk
    · intro k' hk hk2
      rw [hev]
      by_cases hkn : k = k'
      · simp [hkn]
      · simp [hkn]; exact h.free k' hk hk2
    · intro t' j k' hpc
      rw [hev]
      by_cases ht : t' = t
      · subst ht; simp at hpc
      · simp [ht] at hpc
        have := h.got t' j k' hpc
        have hkn : k ≠ k' := by
          rintro rfl; rw [hel] at this; simp at this; exact ht this.1.symm
        simp [hkn, this]
    · intro t' j k' he
      rw [hev] at he
      by_cases hkn : k = k'
      · simp [hkn] at he
      · simp [hkn] at he
        have := h.got' t' j k' he
        have ht : t' ≠ t := by
          rintro rfl; rw [hp] at this; simp at this; exact hkn this.2
        simpa [ht] using this
    · intro t' j y hy
      simp only [setPc_lane, setLane_lane] at hy
      by_cases hc : t' = t ∧ j = i
      · obtain ⟨rfl, rfl⟩ := hc
        simp at hy; subst hy
        exact ⟨l, by rw [hev]; simp⟩
      · simp [hc] at hy
        obtain ⟨l', hl'⟩ := h.held t' j y hy
        refine ⟨l', ?_⟩
        rw [hev]
        have hkn : k ≠ y.idx := by rintro rfl; rw [hel] at hl'; simp at hl'
        simp [hkn, hl']
    · intro t' j k' l' he
      rw [hev] at he
      by_cases hkn : k = k'
      · subst hkn
        simp at he
        obtain ⟨⟨rfl, rfl⟩, _⟩ := he
        exact ⟨⟨k, !ops.ended (s.slot k), l⟩, by simp [setLane_lane], rfl⟩
      · simp [hkn] at he
        obtain ⟨y, hy, hyk⟩ := h.held' t' j k' l' he
        refine ⟨y, ?_, hyk⟩
        have hc : ¬ (t' = t ∧ j = i) := by
          rintro ⟨rfl, rfl⟩; rw [hb.2] at hy; cases hy
        simpa [setLane_lane, hc] using hy
    · intro t' j hbz
      by_cases ht : t' = t
      · subst ht; simp at hbz
      · simp [ht] at hbz
        have := h.busy t' j hbz
        exact ⟨this.1, by simp [setLane_lane, ht, this.2]⟩
    · intro t' j y hy
      simp only [setPc_lane, setLane_lane] at hy
      by_cases hc : t' = t ∧ j = i
      · obtain ⟨rfl, rfl⟩ := hc; exact hb.1
      · simp [hc] at hy; exact h.lanes t' j y hy

theorem Exec.inv {ops : Ops σ Λ ε} {skip n L slots evs} {s : St σ Λ T}
    (h : Exec ops skip n L slots evs s) : Inv ops skip n L slots evs s := by
  induction h with
  | start => exact Inv.init ..
  | quiet _ hs ih => exact ih.step_quiet hs
  | event _ hs ih => exact ih.step_event hs

/-! ### Progress -/

/-- Number of lanes the current call of `particle_cycle_*` has dealt with. -/
def pos (L : Nat) : PC → Nat
  | .cyc i | .claim i | .got i _ | .fin i => i
  | .sim | .done => L

/-- A lane already dealt with is empty only if the queue is exhausted. -/
def Inv2 (n L : Nat) (s : St σ Λ T) : Prop :=
  ∀ t i, i < pos L (s.pc t) → s.lane t i = none → n ≤ s.next

theorem Exec.inv2 {ops : Ops σ Λ ε} {skip n L slots evs} {s : St σ Λ T}
    (h : Exec ops skip n L slots evs s) : Inv2 n L s := by
  have main : ∀ (evs : List (Event T Λ ε)) (s s' : St σ Λ T) o, Inv2 n L s → Step ops skip n L s o s' →
      Inv2 n L s' := by
    intro evs s s' o ih hs t' i' hi' hl'
    cases hs with
    | takeDummy t i hp hi hl =>
      by_cases ht : t' = t
      · subst ht; simp [pos] at hi' hl'; exact ih t' i' (by simpa [hp, pos] using hi') hl'
      · simp [ht] at hi' hl'; exact ih t' i' hi' hl'
    | leaveDummy t i hp hi hl hn => exact hn
    | keep t i x hp hi hl hr =>
      by_cases ht : t' = t
      · subst ht; simp [pos] at hi' hl'
        by_cases hc : i' = i
        · subst hc; rw [hl] at hl'; cases hl'
        · exact ih t' i' (by simp [hp, pos]; omega) hl'
      · simp [ht] at hi' hl'; exact ih t' i' hi' hl'
    | unload t i x hp hi hl hr =>
      simp only [setPc_lane, setLane_lane, setSlot_lane] at hl'
      by_cases ht : t' = t
      · subst ht; simp [pos] at hi'
        have hc : i' ≠ i := by omega
        simp [hc] at hl'
        exact ih t' i' (by simpa [hp, pos] using hi') hl'
      · simp [ht] at hi' hl'; exact ih t' i' hi' hl'
    | count t i hp =>
      by_cases ht : t' = t
      · subst ht; simp [pos] at hi' hl'; exact ih t' i' (by simpa [hp, pos] using hi') hl'
      · simp [ht] at hi' hl'; exact ih t' i' hi' hl'
    | claim t i hp hn =>
      by_cases ht : t' = t
      · subst ht; simp [pos] at hi' hl'
        exact Nat.le_succ_of_le (ih t' i' (by simpa [hp, pos] using hi') hl')
      · simp [ht] at hi' hl'; exact Nat.le_succ_of_le (ih t' i' hi' hl')
    | claimEmpty t i hp hn => simp; omega
    | skip t i k hp hsk hen =>
      by_cases ht : t' = t
      · subst ht; simp [pos] at hi' hl'; exact ih t' i' (by simpa [hp, pos] using hi') hl'
      · simp [ht] at hi' hl'; exact ih t' i' hi' hl'
    | fail t i k e hp hsk hld =>
      by_cases ht : t' = t
      · subst ht; simp [pos] at hi' hl'; exact ih t' i' (by simpa [hp, pos] using hi') hl'
      · simp [ht] at hi' hl'; exact ih t' i' hi' hl'
    | load t i k l hp hsk hld =>
      simp only [setPc_lane, setLane_lane] at hl'
      by_cases ht : t' = t
      · subst ht; simp [pos] at hi'
        by_cases hc : i' = i
        · simp [hc] at hl'
        · simp [hc] at hl'
          exact ih t' i' (by simp [hp, pos]; omega) hl'
      · simp [ht] at hi' hl'; exact ih t' i' hi' hl'
    | loop t hp hr =>
      by_cases ht : t' = t
      · subst ht; simp [pos] at hi' hl'; exact ih t' i' (by simpa [hp, pos] using hi') hl'
      · simp [ht] at hi' hl'; exact ih t' i' hi' hl'
    | exit t hp hr =>
      by_cases ht : t' = t
      · subst ht; simp [pos] at hi' hl'; exact ih t' i' (by simpa [hp, pos] using hi') hl'
      · simp [ht] at hi' hl'; exact ih t' i' hi' hl'
    | advance t ls hp ha =>
      by_cases ht : t' = t
      · subst ht; simp [pos] at hi'
      · simp [ht] at hi' hl'; exact ih t' i' hi' hl'
  induction h with
  | start => intro t i hi; simp [Queue.init, pos] at hi
  | quiet _ hs ih => exact main [] _ _ _ ih hs
  | event _ hs ih => exact main [] _ _ _ ih hs

/-- Outside the physics step, every occupied lane already dealt with is running; a
thread that has left has only empty lanes. -/
def Inv3 (L : Nat) (s : St σ Λ T) : Prop :=
  (∀ t i x, s.pc t ≠ .sim → i < pos L (s.pc t) → s.lane t i = some x → x.running = true) ∧
  (∀ t i, s.pc t = .done → s.lane t i = none)

theorem Exec.inv3 {ops : Ops σ Λ ε} {skip n L slots evs} {s : St σ Λ T}
    (h : Exec ops skip n L slots evs s)
    (hyp : skip = true ∨ ∀ k < n, ops.ended (slots k) = false) : Inv3 L s := by
  have main : ∀ (evs : List (Event T Λ ε)) (s s' : St σ Λ T) o, Inv ops skip n L slots evs s →
      Inv3 L s → Step ops skip n L s o s' → Inv3 L s' := by
    intro evs s s' o hI ih hs
    -- a step that only changes the program counter of `t` without raising `pos`
    have pcOnly : ∀ (t : T) (p : PC) (s₁ : St σ Λ T), s₁.pc = s.pc → s₁.lane = s.lane →
        s.pc t ≠ .sim → pos L p ≤ pos L (s.pc t) → p ≠ .done → Inv3 L (s₁.setPc t p) := by
      intro t p s₁ e1 e2 h1 h2 h3
      refine ⟨?_, ?_⟩
      · intro t' i' x hns hi' hl'
        by_cases ht : t' = t
        · subst ht; simp [e1, e2] at hi' hl'
          exact ih.1 t' i' x h1 (by omega) hl'
        · simp [ht, e1, e2] at hns hi' hl'; exact ih.1 t' i' x hns hi' hl'
      · intro t' i' hd
        by_cases ht : t' = t
        · subst ht; simp at hd; exact absurd hd h3
        · simp [ht, e1, e2] at hd ⊢; exact ih.2 t' i' hd
    cases hs with
    | takeDummy t i hp hi hl =>
      exact pcOnly t _ s rfl rfl (by simp [hp]) (by simp [hp, pos]) (by simp)
    | leaveDummy t i hp hi hl hn =>
      refine ⟨?_, ?_⟩
      · intro t' i' x hns hi' hl'
        by_cases ht : t' = t
        · subst ht; simp [pos] at hi' hl'
          have hc : i' ≠ i := by rintro rfl; rw [hl] at hl'; cases hl'
          exact ih.1 t' i' x (by simp [hp]) (by simp [hp, pos]; omega) hl'
        · simp [ht] at hns hi' hl'; exact ih.1 t' i' x hns hi' hl'
      · intro t' i' hd
        by_cases ht : t' = t
        · subst ht; simp at hd
        · simp [ht] at hd ⊢; exact ih.2 t' i' hd
    | keep t i x hp hi hl hr =>
      refine ⟨?_, ?_⟩
      · intro t' i' x' hns hi' hl'
        by_cases ht : t' = t
        · subst ht; simp [pos] at hi' hl'
          by_cases hc : i' = i
          · subst hc; rw [hl] at hl'; cases hl'; exact hr
          · exact ih.1 t' i' x' (by simp [hp]) (by simp [hp, pos]; omega) hl'
        · simp [ht] at hns hi' hl'; exact ih.1 t' i' x' hns hi' hl'
      · intro t' i' hd
        by_cases ht : t' = t
        · subst ht; simp at hd
        · simp [ht] at hd ⊢; exact ih.2 t' i' hd
    | unload t i x hp hi hl hr =>
      refine ⟨?_, ?_⟩
      · intro t' i' x' hns hi' hl'
        simp only [setPc_lane, setLane_lane, setSlot_lane] at hl'
        by_cases ht : t' = t
        · subst ht; simp [pos] at hi'
          have hc : i' ≠ i := by omega
          simp [hc] at hl'
          exact ih.1 t' i' x' (by simp [hp]) (by simpa [hp, pos] using hi') hl'
        · simp [ht] at hns hi' hl'; exact ih.1 t' i' x' hns hi' hl'
      · intro t' i' hd
        by_cases ht : t' = t
        · subst ht; simp at hd
        · simp [ht] at hd
          simp [setLane_lane, ht]; exact ih.2 t' i' hd
    | count t i hp =>
      exact pcOnly t _ _ rfl rfl (by simp [hp]) (by simp [hp, pos]) (by simp)
    | claim t i hp hn =>
      exact pcOnly t _ _ rfl rfl (by simp [hp]) (by simp [hp, pos]) (by simp)
    | claimEmpty t i hp hn =>
      refine ⟨?_, ?_⟩
      · intro t' i' x' hns hi' hl'
        simp only [setPc_lane, setLane_lane] at hl'
        by_cases ht : t' = t
        · subst ht; simp [pos] at hi'
          by_cases hc : i' = i
          · simp [hc] at hl'
          · simp [hc] at hl'
            exact ih.1 t' i' x' (by simp [hp]) (by simp [hp, pos]; omega) hl'
        · simp [ht] at hns hi' hl'; exact ih.1 t' i' x' hns hi' hl'
      · intro t' i' hd
        by_cases ht : t' = t
        · subst ht; simp at hd
        · simp [ht] at hd
          simp [setLane_lane, ht]; exact ih.2 t' i' hd
    | skip t i k hp hsk hen =>
      exact pcOnly t _ _ rfl rfl (by simp [hp]) (by simp [hp, pos]) (by simp)
    | fail t i k e hp hsk hld =>
      exact pcOnly t _ _ rfl rfl (by simp [hp]) (by simp [hp, pos]) (by simp)
    | load t i k l hp hsk hld =>
      have hel := hI.got t i k hp
      have hs1 := (hel ▸ hI.life k).slot_of_claimed
      have hkn := (hI.small k (by simp [hel])).1
      have hrun : ops.ended (s.slot k) = false := by
        rcases hyp with hyp | hyp
        · exact hsk hyp
        · rw [hs1]; exact hyp k hkn
      refine ⟨?_, ?_⟩
      · intro t' i' x' hns hi' hl'
        simp only [setPc_lane, setLane_lane] at hl'
        by_cases ht : t' = t
        · subst ht; simp [pos] at hi'
          by_cases hc : i' = i
          · simp [hc] at hl'; subst hl'; simp [hrun]
          · simp [hc] at hl'
            exact ih.1 t' i' x' (by simp [hp]) (by simp [hp, pos]; omega) hl'
        · simp [ht] at hns hi' hl'; exact ih.1 t' i' x' hns hi' hl'
      · intro t' i' hd
        by_cases ht : t' = t
        · subst ht; simp at hd
        · simp [ht] at hd
          simp [setLane_lane, ht]; exact ih.2 t' i' hd
    | loop t hp hr =>
      exact pcOnly t _ _ rfl rfl (by simp [hp]) (by simp [hp, pos]) (by simp)
    | exit t hp hr =>
      have hnone : ∀ i, s.lane t i = none := by
        intro i
        cases hx : s.lane t i with
        | none => rfl
        | some x =>
          have hi := hI.lanes t i x hx
          have h1 := ih.1 t i x (by simp [hp]) (by simpa [hp, pos] using hi) hx
          have h2 := hr i hi x hx
          rw [h1] at h2; cases h2
      refine ⟨?_, ?_⟩
      · intro t' i' x' hns hi' hl'
        by_cases ht : t' = t
        · subst ht; simp [hnone] at hl'
        · simp [ht] at hns hi' hl'; exact ih.1 t' i' x' hns hi' hl'
      · intro t' i' hd
        by_cases ht : t' = t
        · subst ht; exact hnone i'
        · simp [ht] at hd ⊢; exact ih.2 t' i' hd
    | advance t ls hp ha =>
      refine ⟨?_, ?_⟩
      · intro t' i' x' hns hi' hl'
        by_cases ht : t' = t
        · subst ht; simp [pos] at hi'
        · simp [ht] at hns hi' hl'; exact ih.1 t' i' x' hns hi' hl'
      · intro t' i' hd
        by_cases ht : t' = t
        · subst ht; simp at hd
        · simp [ht] at hd ⊢; exact ih.2 t' i' hd
  induction h with
  | start =>
    exact ⟨by intro t i x _ hi; simp [Queue.init, pos] at hi, by intro t i; simp [Queue.init]⟩
  | quiet h hs ih => exact main _ _ _ _ h.inv ih hs
  | event h hs ih => exact main _ _ _ _ h.inv ih hs

theorem Exec.cyc_le {ops : Ops σ Λ ε} {skip n L slots evs} {s : St σ Λ T}
    (h : Exec ops skip n L slots evs s) : ∀ t i, s.pc t = .cyc i → i ≤ L := by
  have main : ∀ (evs : List (Event T Λ ε)) (s s' : St σ Λ T) o, Inv ops skip n L slots evs s →
      (∀ t i, s.pc t = .cyc i → i ≤ L) → Step ops skip n L s o s' →
      ∀ t i, s'.pc t = .cyc i → i ≤ L := by
    intro evs s s' o hI ih hs t' i' hp'
    cases hs with
    | takeDummy t i hp | leaveDummy t i hp | keep t i x hp | loop t hp | exit t hp
    | count t i hp | advance t ls hp | unload t i x hp | skip t i k hp | fail t i k e hp
    | claim t i hp =>
      by_cases ht : t' = t
      · subst ht; simp at hp'; try omega
      · simp [ht] at hp'; exact ih t' i' hp'
    | claimEmpty t i hp =>
      have := hI.busy t i (.inl hp)
      by_cases ht : t' = t
      · subst ht; simp at hp'; omega
      · simp [ht] at hp'; exact ih t' i' hp'
    | load t i k l hp =>
      have := hI.busy t i (.inr (.inr ⟨k, hp⟩))
      by_cases ht : t' = t
      · subst ht; simp at hp'; omega
      · simp [ht] at hp'; exact ih t' i' hp'
  induction h with
  | start => intro t i hp; simp [Queue.init] at hp; omega
  | quiet h hs ih => exact main _ _ _ _ h.inv ih hs
  | event h hs ih => exact main _ _ _ _ h.inv ih hs

/-! ### Counting -/

/-- 1 for a thread that has retired a marker but not yet counted it. -/
def owes : PC → Nat
  | .fin _ => 1
  | _ => 0

theorem owes_cyc (i) : owes (.cyc i) = 0 := rfl
theorem owes_claim (i) : owes (.claim i) = 0 := rfl
theorem owes_got (i k) : owes (.got i k) = 0 := rfl
theorem owes_fin (i) : owes (.fin i) = 1 := rfl
theorem owes_sim : owes .sim = 0 := rfl
theorem owes_done : owes .done = 0 := rfl

theorem sum_update [Fintype T] (f : T → PC) (t : T) (p : PC) :
    (∑ u, owes (Function.update f t p u)) + owes (f t) = (∑ u, owes (f u)) + owes p := by
  rw [← Finset.add_sum_erase _ _ (Finset.mem_univ t),
    ← Finset.add_sum_erase (a := t) Finset.univ (fun u => owes (f u)) (Finset.mem_univ t)]
  have : ∑ u ∈ Finset.univ.erase t, owes (Function.update f t p u) =
      ∑ u ∈ Finset.univ.erase t, owes (f u) := by
    apply Finset.sum_congr rfl
    intro u hu
    rw [Function.update_of_ne (Finset.ne_of_mem_erase hu)]
  rw [this]; simp; omega

/-- `finished` lags behind the number of retired markers by the threads that still
have to count one. -/
theorem Exec.count [Fintype T] {ops : Ops σ Λ ε} {skip n L slots evs} {s : St σ Λ T}
    (h : Exec ops skip n L slots evs s) :
    s.finished + ∑ t, owes (s.pc t) = evs.countP Event.retires := by
  induction h with
  | start => simp [Queue.init, owes]
  | @quiet evs s s' _ hs ih =>
    cases hs with
    | takeDummy t i hp | leaveDummy t i hp | keep t i x hp | loop t hp | exit t hp
    | claimEmpty t i hp | count t i hp | advance t ls hp =>
      have := sum_update s.pc t
      rw [hp] at this
      simp only [setPc_pc, setPc_fin, setLane_pc, setLane_fin]
      rw [← ih]
      first
      | (have h0 := this (.claim i); simp only [owes_cyc, owes_claim, owes_got, owes_fin, owes_sim, owes_done] at h0; omega)
      | (have h0 := this (.cyc (i + 1)); simp only [owes_cyc, owes_claim, owes_got, owes_fin, owes_sim, owes_done] at h0; omega)
      | (have h0 := this .sim; simp only [owes_cyc, owes_claim, owes_got, owes_fin, owes_sim, owes_done] at h0; omega)
      | (have h0 := this .done; simp only [owes_cyc, owes_claim, owes_got, owes_fin, owes_sim, owes_done] at h0; omega)
      | (have h0 := this (.cyc 0); simp only [owes_cyc, owes_claim, owes_got, owes_fin, owes_sim, owes_done] at h0; omega)
  | @event evs s s' e _ hs ih =>
    rw [List.countP_append, ← ih]
    cases hs with
    | unload t i x hp | skip t i k hp | fail t i k e hp | load t i k l hp | claim t i hp =>
      have := sum_update s.pc t
      rw [hp] at this
      simp only [setPc_pc, setPc_fin, setLane_pc, setLane_fin, setSlot_pc, setSlot_fin,
        List.countP_singleton, Event.retires]
      first
      | (have h0 := this (.fin i); simp only [owes_cyc, owes_claim, owes_got, owes_fin, owes_sim, owes_done] at h0; simp; omega)
      | (have h0 := this (.cyc (i + 1)); simp only [owes_cyc, owes_claim, owes_got, owes_fin, owes_sim, owes_done] at h0; simp; omega)
      | (have h0 := this (.got i s.next); simp only [owes_cyc, owes_claim, owes_got, owes_fin, owes_sim, owes_done] at h0; simp; omega)

/-- A list of numbers in which every `k < n` and nothing else occurs once has length `n`. -/
theorem length_of_count_one {n : Nat} {ks : List Nat} (h1 : ∀ k ∈ ks, k < n)
    (h2 : ∀ k < n, ks.count k = 1) : ks.length = n := by
  have : ks.Perm (List.range n) := by
    rw [List.perm_iff_count]
    intro a
    by_cases ha : a < n
    · rw [h2 a ha, List.count_eq_one_of_mem List.nodup_range (List.mem_range.2 ha)]
    · rw [List.count_eq_zero_of_not_mem (fun hm => ha (h1 a hm)),
        List.count_eq_zero_of_not_mem (fun hm => ha (List.mem_range.1 hm))]
  simpa using this.length_eq

theorem Finished.retire_one {ops : Ops σ Λ ε} {skip k s v} {evs : List (Event T Λ ε)}
    (h : Finished ops skip k s evs v) : evs.countP Event.retires = 1 := by
  cases h <;> simp [Event.retires]

/-- If every marker below `n` is finished and no other has events, `n` markers retired. -/
theorem retires_eq {ops : Ops σ Λ ε} {skip n} {slots sl : Nat → σ} {evs : List (Event T Λ ε)}
    (h1 : ∀ k, eventsOf k evs ≠ [] → k < n)
    (h2 : ∀ k < n, Finished ops skip k (slots k) (eventsOf k evs) (sl k)) :
    evs.countP Event.retires = n := by
  have hl : ((evs.filter Event.retires).map Event.marker).length = n := by
    apply length_of_count_one
    · intro k hk
      simp at hk
      obtain ⟨e, ⟨he, _⟩, rfl⟩ := hk
      apply h1
      intro hc
      have : e ∈ eventsOf e.marker evs := by simp [eventsOf, he]
      rw [hc] at this; cases this
    · intro k hk
      rw [← (h2 k hk).retire_one]
      simp only [eventsOf, List.count, List.countP_map, List.countP_filter, Function.comp_def]
      congr 1
      funext e
      exact Bool.and_comm _ _
  simpa [List.countP_eq_length_filter] using hl

end Ascot.Queue
