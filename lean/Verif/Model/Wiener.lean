import Mathlib.Algebra.Order.Field.Basic

/-!
# Wiener processes of the adaptive collision operator
(`src/simulate/mccc/mccc_wiener.c`, `mccc_wiener.h`)

`K` stands for `real`, `sqrt` for the C function.  `n` is `MCCC_NSLOTS`.  The arrays
are functions of the slot number; `next i = none` is `nextslot[i] == MCCC_EMPTY`.
The outcome `none` of a function is undefined behaviour: `MCCC_EMPTY` (-1) used as an
array index, or (for `clean`) a loop that does not end.
-/
namespace Ascot.Wiener

/-- `mccc_wienarr`, src/simulate/mccc/mccc_wiener.h:32-41; `val i` are the
`MCCC_NDIM` values of slot `i`. -/
structure Arr (K : Type) where
  next : Nat → Option Nat
  time : Nat → K
  val : Nat → Fin 5 → K

variable {K : Type} [Field K] [LinearOrder K]

/-- Assignment to one array element. -/
def upd {A : Type} (f : Nat → A) (i : Nat) (a : A) : Nat → A := fun j => if j = i then a else f j

/-- `mccc_wiener_initialize`, src/simulate/mccc/mccc_wiener.c:36-49.  `w` is the old content
of the memory; slots beyond `n` do not exist. -/
def init (n : Nat) (w : Arr K) (t0 : K) : Arr K :=
  { next := fun i => if i = 0 then some 0 else if i < n then none else w.next i
    time := upd w.time 0 t0
    val := upd w.val 0 (fun _ => 0) }

/-- Result of the search: the process exists in a slot, or `im` and `ip` (`none` for -1). -/
inductive Found where
  | exists (i : Nat)
  | between (im : Nat) (ip : Option Nat)

/-- Search for `im` and `ip`, src/simulate/mccc/mccc_wiener.c:77-101.  The first argument
counts the remaining rounds of the loop. -/
def scan (w : Arr K) (t : K) : Nat → Nat → Nat → Option Found
  | 0, _, im => some (.between im none)
  | fuel + 1, idx, im =>
    if w.time idx = t then some (.exists idx)
    else
      let im := if w.time idx < t then idx else im
      match w.next idx with
      | none => none
      | some j =>
        if w.time j > t then some (.between im (some j))
        else if j = idx then some (.between im none)
        else scan w t fuel j im

/-- First empty slot, or 0, src/simulate/mccc/mccc_wiener.c:105-111. -/
def emptySlot (n : Nat) (w : Arr K) : Nat :=
  ((List.range n).find? (fun i => (w.next i).isNone)).getD 0

/-- `mccc_wiener_generate`, src/simulate/mccc/mccc_wiener.c:66-159.  Returns the array
and `windex`; `windex = none` means that the error was returned. -/
def generate (sqrt : K → K) (n : Nat) (w : Arr K) (t : K) (rnd : Fin 5 → K) :
    Option (Arr K × Option Nat) :=
  match scan w t n 0 0 with
  | none => none
  | some (.exists i) => some (w, some i)
  | some (.between im ip) =>
    let e := emptySlot n w
    if e = 0 then some (w, none)
    else
      match ip with
      | none =>
        some ({ next := upd (upd w.next e (some e)) im (some e)
                time := upd w.time e t
                val := upd w.val e (fun d => w.val im d + sqrt (t - w.time im) * rnd d) }, some e)
      | some ip =>
        some ({ next := upd (upd w.next e (some ip)) im (some e)
                time := upd w.time e t
                val := upd w.val e (fun d => w.val im d +
                  (w.val ip d - w.val im d) * (t - w.time im) / (w.time ip - w.time im) +
                  sqrt ((t - w.time im) * (w.time ip - t) / (w.time ip - w.time im)) * rnd d) }, some e)

/-- The loop of `mccc_wiener_clean`, src/simulate/mccc/mccc_wiener.c:179-191.  Returns the
array, `idx` and whether the end of the chain was reached (error). -/
def cleanLoop (t : K) : Nat → Arr K → Nat → Option (Arr K × Nat × Bool)
  | 0, _, _ => none
  | fuel + 1, w, idx =>
    if w.time idx < t then
      match w.next idx with
      | none => none
      | some j =>
        if idx = j then some (w, idx, true)
        else cleanLoop t fuel { w with next := upd w.next idx none } j
    else some (w, idx, false)

/-- `mccc_wiener_clean`, src/simulate/mccc/mccc_wiener.c:173-210.  The second component is
true if the call reported an error.  `fuel` bounds the rounds of the `while` loop. -/
def clean (fuel : Nat) (w : Arr K) (t : K) : Option (Arr K × Bool) :=
  match cleanLoop t fuel w 0 with
  | none => none
  | some (w, idx, err) =>
    if idx ≠ 0 ∧ err = false then
      let next := upd w.next 0 (w.next idx)
      let next := if next idx = some idx then upd next 0 (some 0) else next
      some ({ next := upd next idx none
              time := upd w.time 0 (w.time idx)
              val := upd w.val 0 (w.val idx) }, err)
    else some (w, err)

end Ascot.Wiener
