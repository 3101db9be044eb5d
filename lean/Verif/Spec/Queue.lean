import Verif.Model.Queue

/-!
# Specification of a marker's life in the queue

`Life ops skip k s evs v`: marker `k`, whose state at the start was `s`, has seen
exactly the events `evs` and its slot now contains `v`.  There is no constructor
in which a marker is claimed twice, loaded twice, stored twice, or stored by a
lane other than the one it was loaded into.
-/
namespace Ascot.Queue

variable {σ Λ ε T : Type}

/-- Events of a finished marker and the resulting content of its slot. -/
inductive Finished (ops : Ops σ Λ ε) (skip : Bool) (k : Nat) (s : σ) :
    List (Event T Λ ε) → σ → Prop
  /-- it had ended before the simulation and is left as it was (full orbit only) -/
  | skipped (t i) : skip = true → ops.ended s = true →
      Finished ops skip k s [.claim t i k, .skip t i k] s
  /-- it could not be converted; only its error flag is set -/
  | failed (t i e) : ops.load s = .error e → (skip = true → ops.ended s = false) →
      Finished ops skip k s [.claim t i k, .fail t i k e] (ops.setErr e s)
  /-- it was simulated in one lane and the lane's final data was stored in its slot -/
  | simulated (t i l l') : ops.load s = .ok l → (skip = true → ops.ended s = false) →
      Finished ops skip k s [.claim t i k, .load t i k l, .unload t i k l'] (ops.unload l' s)

/-- Events of any marker so far. -/
inductive Life (ops : Ops σ Λ ε) (skip : Bool) (k : Nat) (s : σ) :
    List (Event T Λ ε) → σ → Prop
  | waiting : Life ops skip k s [] s
  | claimed (t i) : Life ops skip k s [.claim t i k] s
  | loaded (t i l) : ops.load s = .ok l → (skip = true → ops.ended s = false) →
      Life ops skip k s [.claim t i k, .load t i k l] s
  | finished {evs v} : Finished ops skip k s evs v → Life ops skip k s evs v

/-- The events about marker `k`, in order. -/
def eventsOf (k : Nat) (evs : List (Event T Λ ε)) : List (Event T Λ ε) :=
  evs.filter fun e => e.marker == k

end Ascot.Queue
