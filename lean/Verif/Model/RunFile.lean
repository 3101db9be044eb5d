import Verif.Model.Options

/-!
# Input selection and run groups (`src/hdf5_interface.c`, `src/ascot5_main.c`,
`src/bbnbi5_main.c`, `src/afsi.c`)

Which group of the input file is read for every kind of input, what is recorded about it in the
output file, and into which group of the output file the results of a run are written.

A file is described by what these functions look at.  The readers of the separate inputs are a
parameter (`InFile.load`), the contents of a result (a marker state, a distribution, ...) is an
abstract type.  Strings are Lean strings, that is, they contain no zero byte.
-/
namespace Ascot.RunFile
open Ascot.Options (Res)

/-! ## Input -/

/-- The kinds of input, src/hdf5_interface.h:20-32, in the order in which
`hdf5_interface_read_input` reads them. -/
inductive Inp
  | options | bfield | efield | plasma | neutral | wall | boozer | mhd | asigma | nbi | marker
  deriving DecidableEq, Repr

/-- The name of the parent group and of the argument. -/
def Inp.name : Inp → String
  | .options => "options" | .bfield => "bfield" | .efield => "efield" | .plasma => "plasma"
  | .neutral => "neutral" | .wall => "wall" | .boozer => "boozer" | .mhd => "mhd"
  | .asigma => "asigma" | .nbi => "nbi" | .marker => "marker"

/-- The order of reading, src/hdf5_interface.c:72-318. -/
def readOrder : List Inp :=
  [.options, .bfield, .efield, .plasma, .neutral, .wall, .boozer, .mhd, .asigma, .nbi, .marker]

/-- An input file: for every kind of input whether there is a parent group (outer `Option`) and what
its attribute `active` is, and what the reader of that kind returns for the group with the given
QID (`none`: failure). -/
structure InFile (D : Type) where
  parent : Inp → Option (Option String)
  load : Inp → String → Option D

/-- The QIDs in the simulation struct, `sim->qid_*`, empty if there is none. -/
abbrev Qids := Inp → String

/-- The selection of one input, src/hdf5_interface.c:74-86 and the same lines for the other kinds,
together with `hdf5_get_active_qid`, src/hdf5_interface.c:664-671.  The array for the QID has eleven
characters, so copying a longer string from the arguments is undefined.  The attribute is read
into the same array as it is stored in the file: one that does not have ten characters either does
not fit or leaves the rest of the array indeterminate. -/
def select {D : Type} (f : InFile D) (q : Qids) (t : Inp) : Res String :=
  match f.parent t with
  | none => .fail
  | some act =>
    if q t ≠ "" then
      if (q t).length ≤ 10 then .ok (q t) else .ub
    else
      match act with
      | none => .fail
      | some a => if a.length = 10 then .ok a else .ub

/-- What has been read: the QIDs in the simulation struct and the data. -/
structure Read (D : Type) where
  qids : Qids
  data : Inp → Option D

/-- Reading one kind of input, for example src/hdf5_interface.c:72-93: the QID is stored in the
simulation struct before the reader is called. -/
def readOne {D : Type} (f : InFile D) (r : Read D) (t : Inp) : Res (Read D) :=
  match select f r.qids t with
  | .fail => .fail
  | .ub => .ub
  | .ok q =>
    match f.load t q with
    | none => .fail
    | some d => .ok ⟨Function.update r.qids t q, Function.update r.data t (some d)⟩

/-- One kind of input after the other. -/
def readList {D : Type} (f : InFile D) (flags : Inp → Bool) : List Inp → Read D → Res (Read D)
  | [], r => .ok r
  | t :: ts, r =>
    if flags t then
      match readOne f r t with
      | .ok r' => readList f flags ts r'
      | .fail => .fail
      | .ub => .ub
    else readList f flags ts r

/-- `hdf5_interface_read_input`, src/hdf5_interface.c:52-322. -/
def readInput {D : Type} (f : InFile D) (flags : Inp → Bool) (q : Qids) : Res (Read D) :=
  readList f flags readOrder ⟨q, fun _ => none⟩

/-- The two programs. -/
inductive Prog
  | ascot5 | bbnbi5
  deriving DecidableEq, Repr

/-- The inputs the programs read, src/ascot5_main.c:150-156 and src/bbnbi5_main.c:61-65. -/
def Prog.flags : Prog → Inp → Bool
  | .ascot5, t => t ∈ [.options, .bfield, .efield, .plasma, .neutral, .wall, .marker, .boozer,
      .mhd, .asigma]
  | .bbnbi5, t => t ∈ [.bfield, .plasma, .neutral, .wall, .asigma, .nbi, .options]

/-- The inputs that can be selected by an argument, src/ascot5_main.c:458-467 and 527-556, and
src/bbnbi5_main.c:157-160 and 225-236. -/
def Prog.args : Prog → Inp → Bool
  | .ascot5, t => t ∈ [.options, .bfield, .efield, .marker, .wall, .plasma, .neutral, .boozer,
      .mhd, .asigma]
  | .bbnbi5, t => t ∈ [.bfield, .wall, .plasma, .nbi]

/-- The QIDs after the arguments have been read: `given` lists the pairs of option and value, where
a later one replaces an earlier one.  Arguments that are not known end the program (`fail`).  The
arrays have 256 characters; longer values are left to `select`, where they are undefined too. -/
def readArgs (p : Prog) : List (Inp × String) → Qids → Res Qids
  | [], q => .ok q
  | (t, v) :: l, q => if p.args t then readArgs p l (Function.update q t v) else .fail

/-! ## File names -/

/-- The string without a trailing `.h5`, src/ascot5_main.c:496-505 and 507-516,
src/bbnbi5_main.c:193-203 and 205-215. -/
def strip (s : List Char) : List Char :=
  if s.length > 3 ∧ s.drop (s.length - 3) = ['.', 'h', '5'] then s.take (s.length - 3) else s

/-- The extension that is added. -/
def ext : List Char := ['.', 'h', '5']

/-- The names of the input and the output file, src/ascot5_main.c:580-603 and
src/bbnbi5_main.c:270-294, from the arguments `--in` and `--out` (`none`: not given). -/
def fileNames (i o : Option (List Char)) : List Char × List Char :=
  let fin := (i.map strip).getD []
  let fout := (o.map strip).getD []
  if fin = [] ∧ fout = [] then ("ascot.h5".toList, "ascot.h5".toList)
  else if fin = [] ∧ fout ≠ [] then ("ascot.h5".toList, fout ++ ext)
  else if fin ≠ [] ∧ fout = [] then (fin ++ ext, fin ++ ext)
  else (fin ++ ext, fout ++ ext)

/-! ## Output -/

/-- The kinds of runs, the argument `run` of `hdf5_interface_init_results`. -/
inductive Kind
  | run | bbnbi | afsi
  deriving DecidableEq, Repr

/-- A run group: its attributes and its members. -/
structure Grp (C : Type) where
  attrs : String → Option String
  items : String → Option C

/-- An output file: the attribute `active` of `/results`, the groups `/results/<kind>_<qid>`, and
the members of the top of the file. -/
structure File (C : Type) where
  active : Option String
  groups : Kind → String → Option (Grp C)
  top : String → Option C

/-- A file with nothing in it, `hdf5_create`. -/
def File.empty {C : Type} : File C := ⟨none, fun _ _ => none, fun _ => none⟩

/-- A file with one group replaced. -/
def File.setGrp {C : Type} (f : File C) (k : Kind) (q : String) (g : Grp C) : File C :=
  { f with groups := fun k' q' => if k' = k ∧ q' = q then some g else f.groups k' q' }

/-- `hdf5_write_string_attribute`, src/hdf5io/hdf5_helpers.c:289-328: replaces the attribute. -/
def setAttr (a : String → Option String) (n v : String) : String → Option String :=
  fun x => if x = n then some v else a x

/-- The order of recording, src/hdf5_interface.c:387-440. -/
def recordOrder : List Inp :=
  [.options, .bfield, .efield, .plasma, .neutral, .wall, .marker, .boozer, .mhd, .asigma, .nbi]

/-- The name of the attribute, `qid_options` and so on. -/
def attrName (t : Inp) : String := "qid_" ++ t.name

/-- The QIDs of the inputs, src/hdf5_interface.c:386-440. -/
def recordQids (q : Qids) (a : String → Option String) : String → Option String :=
  recordOrder.foldl (fun a t => if q t ≠ "" then setAttr a (attrName t) (q t) else a) a

/-- All attributes of a new run group, src/hdf5_interface.c:386-471: the QIDs, then description,
repository, date, and compiler flags (`rest`, in this order). -/
def runAttrs (q : Qids) (desc repo date cflags cc : String) : String → Option String :=
  setAttr (setAttr (setAttr (setAttr (setAttr (recordQids q fun _ => none)
    "description" desc) "repository" repo) "date" date) "CFLAGS" cflags) "CC" cc

/-- `hdf5_interface_init_results`, src/hdf5_interface.c:342-474: a group that exists already is an
error (`none`); otherwise the group is made and becomes the active one. -/
def initResults {C : Type} (f : File C) (k : Kind) (q : String) (a : String → Option String) :
    Option (File C) :=
  match f.groups k q with
  | some _ => none
  | none => some { f.setGrp k q ⟨a, fun _ => none⟩ with active := some q }

/-- The group that is active, src/hdf5_interface.c:493-527 and 554-587: the QID is looked for among
the runs of `ascot5_main`, of `bbnbi5` and of AFSI, in this order.  If there is none, an error is
printed and the (empty) path is used (inner `none`). -/
def locate {C : Type} (f : File C) : Option (Option (Kind × String)) :=
  match f.active with
  | none => none
  | some q =>
    if (f.groups .run q).isSome then some (some (.run, q))
    else if (f.groups .bbnbi q).isSome then some (some (.bbnbi, q))
    else if (f.groups .afsi q).isSome then some (some (.afsi, q))
    else some none

/-- A new member of a group; `none` if there is one of this name, because `H5Gcreate2` fails. -/
def putItem {C : Type} (m : String → Option C) (n : String) (c : C) : Option (String → Option C) :=
  match m n with
  | some _ => none
  | none => some fun x => if x = n then some c else m x

/-- A member of a run group; the group is made if there is none (`hdf5_create_group` makes the
parents, src/hdf5io/hdf5_helpers.c:66-94). -/
def writeIn {C : Type} (f : File C) (k : Kind) (q n : String) (c : C) : Option (File C) :=
  match f.groups k q with
  | some g => (putItem g.items n c).map fun m => f.setGrp k q { g with items := m }
  | none => (putItem (fun _ => none) n c).map fun m => f.setGrp k q ⟨fun _ => none, m⟩

/-- `hdf5_interface_write_state`, src/hdf5_interface.c:485-534, and one of the parts of
`hdf5_interface_write_diagnostics`, src/hdf5_interface.c:544-650. -/
def writeActive {C : Type} (f : File C) (n : String) (c : C) : Option (File C) :=
  match locate f with
  | none => none
  | some none => (putItem f.top n c).map fun m => { f with top := m }
  | some (some (k, q)) => writeIn f k q n c

/-- What is done to an output file by the programs and by the user. -/
inductive Op (C : Type)
  /-- A run of this kind with this QID begins. -/
  | init (k : Kind) (q : String) (a : String → Option String)
  /-- The run of this kind and QID writes a result. -/
  | save (k : Kind) (q n : String) (c : C)
  /-- The user makes another run the active one, for example through the Python interface. -/
  | activate (q : String)

/-- One operation; one that fails leaves the file as it is.  AFSI writes into the group of its QID,
src/afsi.c:225-281, the other programs into the group that is active (they know their QID only
for the names of the progress files). -/
def step {C : Type} (f : File C) : Op C → File C
  | .init k q a => (initResults f k q a).getD f
  | .save .afsi q n c => (writeIn f .afsi q n c).getD f
  | .save _ _ n c => (writeActive f n c).getD f
  | .activate q => { f with active := some q }

/-- A history of operations. -/
def exec {C : Type} (f : File C) (h : List (Op C)) : File C := h.foldl step f

end Ascot.RunFile
