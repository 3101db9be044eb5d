import Verif.Model.InputState

/-!
# What a user expects of the inputs of the interactive interface

"If the input is already initialized, nothing is done. In case there is already different input of same type initialized, an error is
raised."  With `switch`, "the old input is free'd and the new one initialized" (`input_init`).  "If called without providing any arguments,
then all input fields are free'd" (`input_free`).  "Open a new HDF5 file and free resources from the old one" (`file_load`).
-/
namespace Ascot.InputDoc
open Ascot.InputState (Inp Qid File Arg Op)

/-- What the user knows: which file is open, and for each kind of input what is initialised, with its identifier. -/
structure Doc (D : Type) where
  file : File D
  shown : Inp → Option (Qid × D)

variable {D : Type}

/-- What an argument asks for. -/
def wanted (f : File D) (i : Inp) : Arg D → Option (Qid × D)
  | .absent => none
  | .group q => (f i q).map fun d => (q, d)
  | .dict d q => d.map fun d => (q, d)

/-- The argument asks for something else than what is initialised.  A dictionary is always something else. -/
def Different : Option (Qid × D) → Arg D → Prop
  | none, _ => False
  | some _, .absent => False
  | some _, .dict _ _ => True
  | some (q, _), .group q' => q ≠ q'

open Classical in
/-- Initialisation; the second component says whether an error is raised. -/
noncomputable def init (s : Doc D) (args : Inp → Arg D) (switch : Bool) : Doc D × Bool :=
  if switch = false ∧ ∃ i, Different (s.shown i) (args i) then (s, true)
  else (⟨s.file, fun i => (wanted s.file i (args i)).or (s.shown i)⟩, false)

open Classical in
/-- What the user expects of the operations; `free` without arguments frees all. -/
noncomputable def step (s : Doc D) : Op D → Doc D × Bool
  | .load f => (⟨f, fun _ => none⟩, false)
  | .free which => (⟨s.file, fun i => if which i = true ∨ ∀ j, which j = false then none else s.shown i⟩, false)
  | .init args switch => init s args switch
  | .nbi a => init s (fun i => if i = .nbi then a else .absent) false

/-- The histories considered: all groups that are asked for can be read, all dictionaries can be taken over, the identifier generated for a dictionary is
not that of a group in the file. -/
def ArgOk (f : File D) (i : Inp) : Arg D → Prop
  | .absent => True
  | .group q => (f i q).isSome
  | .dict d q => d.isSome ∧ f i q = none

/-- All histories of loading, initialising and freeing, without injectors. -/
def Good (f : File D) : List (Op D) → Prop
  | [] => True
  | .load f' :: ops => Good f' ops
  | .free which :: ops => which .nbi = false ∧ Good f ops
  | .init args _ :: ops => (∀ i, ArgOk f i (args i)) ∧ args .nbi = .absent ∧ Good f ops
  | .nbi _ :: _ => False

end Ascot.InputDoc
