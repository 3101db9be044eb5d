import Verif.Model.EndCond

/-!
# Error and end-condition fields in the conversions back to the state
(`src/particle.c`) and the life of one lane between loading and storing
-/
namespace Ascot.ToState
open Ascot.EndCond

/-- The two fields of `particle_state` that C10 is about. -/
structure Report where
  endcond : Nat
  err : Nat
  deriving DecidableEq

/-- `particle_fo_to_state`, src/particle.c:744-846, and `particle_gc_to_state`,
src/particle.c:936-1020: `convErr` is the value of the local `err` after the
coordinate transformation (zero if it succeeded). -/
def toState {K : Type} (convErr : Nat) (l : Lane K) : Report :=
  let simerr := l.err
  { endcond := l.endcond, err := if simerr ≠ 0 then simerr else convErr }

/-- `particle_ml_to_state`, src/particle.c:1117-1172, including the two assignments
after the comment "make sure it is not overwritten here" (lines 1162-1171). -/
def mlToState {K : Type} (l : Lane K) : Report :=
  let err := 0
  let simerr := l.err
  let p : Report := { endcond := l.endcond, err := if simerr ≠ 0 then simerr else err }
  let err := if simerr = 0 ∧ err ≠ 0 then err else err
  { p with err := err }

/-- A physics step of a running lane: it either succeeds, in which case it may change
everything except `err`, `endcond` and `running`, or it fails and sets a nonzero
`err` and `running = 0` (the pattern `if(errflag) {p->err[i] = errflag;
p->running[i] = 0;}` of src/simulate/step/*.c and src/simulate/mccc/*.c). -/
inductive Physics {K : Type} : Lane K → Lane K → Prop
  | ok (a b : Lane K) : b.err = a.err → b.endcond = a.endcond → b.running = a.running → Physics a b
  | fail (a b : Lane K) : b.err ≠ 0 → b.endcond = a.endcond → b.running = false → Physics a b

/-- Lanes reachable from a freshly loaded marker (`err = 0`, `endcond = 0`,
`running = 1`, src/particle.c:717-724, 910-917, 1087-1094) by physics steps each
followed by the end-condition check `check`, which may look at the lane before the
physics step. -/
inductive Reach {K : Type} (check : Lane K → Lane K → Lane K → Prop) : Lane K → Prop
  | load (l : Lane K) : l.err = 0 → l.endcond = 0 → l.running = true → Reach check l
  | step (a b c : Lane K) : Reach check a → a.running = true → Physics a b → check a b c →
      Reach check c

end Ascot.ToState
