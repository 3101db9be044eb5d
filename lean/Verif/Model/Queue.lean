import Mathlib.Logic.Function.Basic

/-!
# The shared marker queue (`src/particle.c`, `src/simulate.c`)

Threads share a queue of marker states and each has `L` vector lanes.  The
threads run `particle_cycle_fo/gc/ml` alternating with physics steps.  This file
gives the interleaving semantics: every constructor of `Step` is one atomic
action of one thread.  The `#pragma omp critical` sections of the code
(`q->next++`, `q->finished++`) are single actions; reading `q->p[i]`, converting
and writing it back are actions on a slot that no other thread may touch, which
is part of what is proved.
-/
namespace Ascot.Queue

/-- What the queue needs to know about markers.  `σ` is `particle_state`, `Λ` the
data of one lane of the SIMD structure, `ε` an error code. -/
structure Ops (σ Λ ε : Type) where
  /-- `endcond != 0` -/
  ended : σ → Bool
  /-- `particle_state_to_fo/gc/ml`, src/particle.c:659-728, 871-920, 1052-1097 -/
  load : σ → Except ε Λ
  /-- `q->p[i_prt]->err = err`, src/particle.c:320, 414, 508 -/
  setErr : ε → σ → σ
  /-- `particle_fo/gc/ml_to_state`, src/particle.c:744-846, 936-1020, 1117-1172 -/
  unload : Λ → σ → σ

/-- One occupied lane: queue index (`p->index[i]`), `p->running[i]` and the rest.
A lane that holds a dummy (`p->id[i] < 0`) is `none`; markers have positive
identifiers (src/particle.c:566, 594, 613). -/
structure Lane (Λ : Type) where
  idx : Nat
  running : Bool
  data : Λ

/-- Where a thread is inside `particle_cycle_*` or its main loop. -/
inductive PC where
  /-- top of the loop over lanes at lane `i` -/
  | cyc (i : Nat)
  /-- about to execute `i_prt = q->next++` for lane `i` -/
  | claim (i : Nat)
  /-- holds `i_prt = k < q->n` for lane `i` -/
  | got (i k : Nat)
  /-- about to execute `q->finished++`, then claims another marker for lane `i` -/
  | fin (i : Nat)
  /-- main loop body (physics) -/
  | sim
  /-- left the main loop -/
  | done

/-- Observable events of a marker's life. -/
inductive Event (T Λ ε : Type) where
  | claim (t : T) (i k : Nat)
  | skip (t : T) (i k : Nat)
  | fail (t : T) (i k : Nat) (e : ε)
  | load (t : T) (i k : Nat) (l : Λ)
  | unload (t : T) (i k : Nat) (l : Λ)

/-- The marker an event is about. -/
def Event.marker {T Λ ε : Type} : Event T Λ ε → Nat
  | .claim _ _ k | .skip _ _ k | .fail _ _ k _ | .load _ _ k _ | .unload _ _ k _ => k

/-- Events after which the marker is finished. -/
def Event.retires {T Λ ε : Type} : Event T Λ ε → Bool
  | .skip .. | .fail .. | .unload .. => true
  | _ => false

/-- Shared and thread-local state. -/
structure St (σ Λ T : Type) where
  next : Nat
  finished : Nat
  slot : Nat → σ
  pc : T → PC
  lane : T → Nat → Option (Lane Λ)

variable {σ Λ ε T : Type} [DecidableEq T]

def St.setPc (s : St σ Λ T) (t : T) (p : PC) : St σ Λ T :=
  { s with pc := Function.update s.pc t p }

def St.setLane (s : St σ Λ T) (t : T) (i : Nat) (l : Option (Lane Λ)) : St σ Λ T :=
  { s with lane := Function.update s.lane t (Function.update (s.lane t) i l) }

def St.setSlot (s : St σ Λ T) (k : Nat) (x : σ) : St σ Λ T :=
  { s with slot := Function.update s.slot k x }

/-- A physics step as far as the queue is concerned: lanes that are not running
are not changed, running lanes may change their data arbitrarily and may stop,
but keep their queue index (`index` is written only by the conversions). -/
def Advanced (a b : Nat → Option (Lane Λ)) : Prop :=
  ∀ i, match a i with
    | none => b i = none
    | some x => if x.running then ∃ y, b i = some y ∧ y.idx = x.idx else b i = some x

/-- Atomic steps.  `skip` is true for `particle_cycle_fo` (src/particle.c:268-340)
and false for `particle_cycle_gc` (367-434) and `particle_cycle_ml` (461-528);
`n` is `q->n`, `L` the number of lanes. -/
inductive Step (ops : Ops σ Λ ε) (skip : Bool) (n L : Nat) :
    St σ Λ T → Option (Event T Λ ε) → St σ Λ T → Prop
  /-- Dummy lane, markers left (src/particle.c:279-281).  `q->next` is read outside
  a critical section; a stale value may be smaller than the current one, so this
  step is allowed even if the queue has meanwhile become empty. -/
  | takeDummy (s t i) : s.pc t = .cyc i → i < L → s.lane t i = none →
      Step ops skip n L s none (s.setPc t (.claim i))
  /-- Dummy lane, no markers left. -/
  | leaveDummy (s t i) : s.pc t = .cyc i → i < L → s.lane t i = none → n ≤ s.next →
      Step ops skip n L s none (s.setPc t (.cyc (i + 1)))
  /-- The marker of the lane is still running. -/
  | keep (s t i x) : s.pc t = .cyc i → i < L → s.lane t i = some x → x.running = true →
      Step ops skip n L s none (s.setPc t (.cyc (i + 1)))
  /-- The marker has finished: store it back (src/particle.c:284-288).  The lane's
  contents are stale from here on and are overwritten before they are looked at
  again, so the lane is marked empty. -/
  | unload (s t i x) : s.pc t = .cyc i → i < L → s.lane t i = some x → x.running = false →
      Step ops skip n L s (some (.unload t i x.idx x.data))
        (((s.setSlot x.idx (ops.unload x.data (s.slot x.idx))).setLane t i none).setPc t (.fin i))
  /-- `q->finished++` (src/particle.c:290, 311, 322). -/
  | count (s t i) : s.pc t = .fin i →
      Step ops skip n L s none ({ s with finished := s.finished + 1 }.setPc t (.claim i))
  /-- `i_prt = q->next++` gives a valid index (src/particle.c:298-299). -/
  | claim (s t i) : s.pc t = .claim i → s.next < n →
      Step ops skip n L s (some (.claim t i s.next))
        ({ s with next := s.next + 1 }.setPc t (.got i s.next))
  /-- `i_prt = q->next++` finds the queue empty: dummy (src/particle.c:301-307). -/
  | claimEmpty (s t i) : s.pc t = .claim i → n ≤ s.next →
      Step ops skip n L s none
        (({ s with next := s.next + 1 }.setLane t i none).setPc t (.cyc (i + 1)))
  /-- The marker already has an end condition (src/particle.c:308-312, FO only). -/
  | skip (s t i k) : s.pc t = .got i k → skip = true → ops.ended (s.slot k) = true →
      Step ops skip n L s (some (.skip t i k)) (s.setPc t (.fin i))
  /-- Conversion fails (src/particle.c:315-323). -/
  | fail (s t i k e) : s.pc t = .got i k → (skip = true → ops.ended (s.slot k) = false) →
      ops.load (s.slot k) = .error e →
      Step ops skip n L s (some (.fail t i k e))
        ((s.setSlot k (ops.setErr e (s.slot k))).setPc t (.fin i))
  /-- Conversion succeeds (src/particle.c:324-328); the conversions set
  `running = 1` unless the state has an end condition (717-720, 910-913, 1087-1090). -/
  | load (s t i k l) : s.pc t = .got i k → (skip = true → ops.ended (s.slot k) = false) →
      ops.load (s.slot k) = .ok l →
      Step ops skip n L s (some (.load t i k l))
        ((s.setLane t i (some ⟨k, !ops.ended (s.slot k), l⟩)).setPc t (.cyc (i + 1)))
  /-- `n_running > 0`: stay in the main loop (src/particle.c:333-339 and
  `while(n_running > 0)` in src/simulate/simulate_*.c). -/
  | loop (s t) : s.pc t = .cyc L → (∃ i < L, ∃ x, s.lane t i = some x ∧ x.running = true) →
      Step ops skip n L s none (s.setPc t .sim)
  /-- `n_running == 0`: leave the main loop. -/
  | exit (s t) : s.pc t = .cyc L → (∀ i < L, ∀ x, s.lane t i = some x → x.running = false) →
      Step ops skip n L s none (s.setPc t .done)
  /-- One pass of the main loop body, then the next call of `particle_cycle_*`. -/
  | advance (s t ls) : s.pc t = .sim → Advanced (s.lane t) ls →
      Step ops skip n L s none
        ({ s with lane := Function.update s.lane t ls }.setPc t (.cyc 0))

/-- Start of the simulation (src/simulate.c:154-167; the lanes are dummies at first). -/
def init (slots : Nat → σ) : St σ Λ T :=
  { next := 0, finished := 0, slot := slots, pc := fun _ => .cyc 0, lane := fun _ _ => none }

/-- Executions with the sequence of events, oldest first. -/
inductive Exec (ops : Ops σ Λ ε) (skip : Bool) (n L : Nat) (slots : Nat → σ) :
    List (Event T Λ ε) → St σ Λ T → Prop
  | start : Exec ops skip n L slots [] (init slots)
  | quiet {evs s s'} : Exec ops skip n L slots evs s → Step ops skip n L s none s' →
      Exec ops skip n L slots evs s'
  | event {evs s s' e} : Exec ops skip n L slots evs s → Step ops skip n L s (some e) s' →
      Exec ops skip n L slots (evs ++ [e]) s'

end Ascot.Queue
