import Verif.Model.Queue
import Verif.Model.EndCond

/-!
# The hybrid mode (`src/simulate.c`)

After the guiding-center stage, the markers that were stopped by the hand-over condition are simulated as full orbits.  The two
stages are executions of the marker queue (`Verif.Model.Queue`); here is what happens between them.
-/
namespace Ascot.Simulate
open Ascot.Queue Ascot.EndCond

/-- The part of `particle_state` used here; `rest` is everything else. -/
structure Marker (X : Type) where
  endcond : Nat
  walltile : Int
  err : Nat
  rest : X

variable {X Λ : Type}

/-- Body of the first loop, src/simulate.c:242-257.  `tile` is the result of `wall_hit_wall` for the segment from the
guiding-center position to the particle position of the marker. -/
def handoverStep (tile : Marker X → Int) (st : Nat × (Nat → Marker X)) (i : Nat) : Nat × (Nat → Marker X) :=
  let m := st.2 i
  if m.endcond = hybrid then
    if tile m > 0 then (st.1, Function.update st.2 i { m with walltile := tile m, endcond := m.endcond ||| wall })
    else (st.1 + 1, st.2)
  else st

/-- The first loop, src/simulate.c:236-259: the number of markers to continue and the markers. -/
def handover (tile : Marker X → Int) (n : Nat) (p : Nat → Marker X) : Nat × (Nat → Marker X) :=
  (List.range n).foldl (handoverStep tile) (0, p)

/-- Body of the second loop, src/simulate.c:265-267. -/
def resetStep (p : Nat → Marker X) (i : Nat) : Nat → Marker X :=
  if (p i).endcond &&& hybrid ≠ 0 then Function.update p i { p i with endcond := (p i).endcond ^^^ hybrid } else p

/-- The second loop, src/simulate.c:264-268. -/
def reset (n : Nat) (p : Nat → Marker X) : Nat → Marker X := (List.range n).foldl resetStep p

/-- The queue operations of the full-orbit stage: `conv` is the conversion of a marker without an error, `store` the conversion
back.  A marker with an error is not converted, src/particle.c:661-663. -/
def foOps (conv : Marker X → Except Nat Λ) (store : Λ → Marker X → Marker X) : Ops (Marker X) Λ Nat where
  ended m := decide (m.endcond ≠ 0)
  load m := if m.err ≠ 0 then .error m.err else conv m
  setErr e m := { m with err := e }
  unload := store

/-- The hybrid stage, src/simulate.c:234-292, from the markers `p` after the guiding-center stage to the markers `q`; `evs` are
the events of the full-orbit stage. -/
def HybridStage (T : Type) [DecidableEq T] (tile : Marker X → Int) (conv : Marker X → Except Nat Λ) (store : Λ → Marker X → Marker X)
    (n L : Nat) (p : Nat → Marker X) (evs : List (Event T Λ Nat)) (q : Nat → Marker X) : Prop :=
  if (handover tile n p).1 > 0 then
    ∃ s : St (Marker X) Λ T, Exec (foOps conv store) true n L (reset n (handover tile n p).2) evs s ∧ (∀ t, s.pc t = .done) ∧ q = s.slot
  else evs = [] ∧ q = (handover tile n p).2

end Ascot.Simulate
