import Verif.Model.MarkerFile

/-!
# Writing input groups from Python

The writers of `a5py/ascot5io` check the sizes of the arrays they are given, add a group to the
file and create its data sets one after the other with `create_dataset` of the library h5py.
One-dimensional arrays are lists (arrays of shape `(n,)` and `(n,1)` have the same elements in the
same order), others are functions of the indices.  Conversions between number types are left out.
-/
namespace Ascot.PyFile
open Ascot.MarkerFile (Group)
open Ascot.Options (Res)

/-- A numpy array with several indices. -/
structure Nd where
  shape : List ℕ
  at' : List ℕ → ℝ

/-- The indices of an array in the order of storage: the last index changes fastest. -/
def indices : List ℕ → List (List ℕ)
  | [] => [[]]
  | n :: s => (List.range n).flatMap fun i => (indices s).map fun is => i :: is

/-- The elements in the order of storage, as HDF5 and numpy (`order="C"`) have them. -/
def Nd.flat (a : Nd) : List ℝ := (indices a.shape).map a.at'

/-- `a.size`. -/
def Nd.size (a : Nd) : ℕ := a.shape.prod

/-- `np.transpose(a)`: the indices in reverse order. -/
def Nd.T (a : Nd) : Nd := ⟨a.shape.reverse, fun i => a.at' i.reverse⟩

/-- `np.transpose(a, p)`: index `j` of the result is index `p[j]` of `a`. -/
def Nd.transpose (a : Nd) (p : List ℕ) : Nd :=
  ⟨p.map fun j => a.shape.getD j 0, fun i => a.at' ((List.range p.length).map fun k => i.getD (p.idxOf k) 0)⟩

/-- The contents of a data set. -/
inductive Elems where
  | reals (xs : List ℝ)
  | ints (xs : List ℤ)

def Elems.length : Elems → ℕ
  | .reals xs => xs.length
  | .ints xs => xs.length

/-- A call `g.create_dataset(name, shape, data=data)`. -/
structure Ds where
  name : String
  shape : List ℕ
  data : Elems

/-- A group without data sets. -/
def empty : Group := ⟨fun _ => none, fun _ => none⟩

/-- A data set is added to a group. -/
def put (g : Group) (d : Ds) : Group :=
  match d.data with
  | .reals xs => { g with reals := fun x => if x = d.name then some xs else g.reals x }
  | .ints xs => { g with ints := fun x => if x = d.name then some xs else g.ints x }

/-- `create_dataset`: the number of elements must be that of the shape, otherwise an exception is
raised. -/
def create (g : Group) (d : Ds) : Option Group :=
  if d.data.length = d.shape.prod then some (put g d) else none

/-- Outcome of a writer: an exception before the group is added to the file, an exception while its
data sets are created, after which the group stays in the file with those created so far, or
success. -/
inductive Written where
  | refused
  | broken (g : Group)
  | done (g : Group)

/-- A sequence of `create_dataset`. -/
def createAll (g : Group) : List Ds → Written
  | [] => .done g
  | d :: ds => match create g d with
    | none => .broken g
    | some g' => createAll g' ds

/-- The group that the writer left in the file. -/
def Written.group : Written → Option Group
  | .refused => none
  | .broken g => some g
  | .done g => some g

/-! ### Reading in C -/

/-- `hdf5_read_int` into a single variable that is then used as the number of elements of arrays. -/
def readCount (g : Group) (name : String) : Res ℕ :=
  match g.ints name with
  | none => .fail
  | some [k] => if 0 ≤ k then .ok k.toNat else .ub
  | some _ => .ub

/-- `hdf5_read_int` into a single variable. -/
def readInt (g : Group) (name : String) : Res ℤ :=
  match g.ints name with
  | none => .fail
  | some [k] => .ok k
  | some _ => .ub

/-- `hdf5_read_double` into a single variable. -/
def readReal (g : Group) (name : String) : Res ℝ :=
  match g.reals name with
  | none => .fail
  | some [x] => .ok x
  | some _ => .ub

/-- An array of `n` numbers given to a function that takes a pointer; `junk` is what lies behind
it in memory. -/
def ext {n : ℕ} (junk : ℕ → ℝ) (f : Fin n → ℝ) (i : ℕ) : ℝ := if h : i < n then f ⟨i, h⟩ else junk i

/-- One type is looked for and read; `old` is the result so far. -/
def found {D : Type} (f : String → Option Group) (old : Res D) (t : String × (Group → Res D)) : Res D :=
  match old, f t.1 with
  | .ub, _ => .ub
  | r, none => r
  | _, some g => t.2 g

/-- The functions `hdf5_*_init` of the inputs that have several types: `f` gives the group of each type that has
the identifier in question.  Each of the types that the function knows is looked for, those found are read, and
what was read last counts; if there is none, the result is an error. -/
def lastFound {D : Type} (f : String → Option Group) (known : List (String × (Group → Res D))) : Res D :=
  known.foldl (found f) .fail

/-- A file that holds one group with the identifier in question. -/
def only (type : String) (g : Group) : String → Option Group := fun t => if t = type then some g else none

end Ascot.PyFile
