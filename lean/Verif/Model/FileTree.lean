import Mathlib.Data.List.Infix
import Mathlib.Data.List.Lex
import Mathlib.Data.Char
import Mathlib.Data.List.Sort

/-!
# Groups of an HDF5 file (`a5py/ascot5io/coreio/fileapi.py`, `tools.py`, `treeview.py`,
`treedata.py`, `a5py/ascot5io/__init__.py`, `src/hdf5_interface.c`)

Creating, removing, activating, describing and copying the groups of a file, and building the tree
through which Python accesses them.

A file is the list of its top level groups ("parents") in the order in which `h5py` iterates over
them, and each of those has an attribute `active` and the list of its groups.  Of a group the model
has the name, the attributes `description` and `date` (`none`: missing) and the attributes
`qid_<parent>` of results as pairs of a parent and a QID.  Datasets and the other attributes are
not modelled: nothing here depends on them.

Strings are lists of characters, and descriptions are ASCII: `np.bytes_` refuses anything else.
The random numbers and the clock are parameters.
-/
namespace Ascot.FileTree

abbrev Str := List Char

/-- A group of a parent. -/
structure Grp where
  name : Str
  desc : Option Str
  date : Option Str
  refs : List (Str × Str)
  deriving DecidableEq, Repr

/-- A top level group. -/
structure Parent where
  name : Str
  active : Option Str
  groups : List Grp
  deriving DecidableEq, Repr

abbrev File := List Parent

/-- What can be raised: `AscotNoDataException`, `AscotIOException`, and the exceptions of Python
itself (`KeyError`, `AttributeError`, `ValueError`, `TypeError`). -/
inductive Exc
  | noData | io | key | attr | value | type
  deriving DecidableEq, Repr

/-- The outcome of a call that changes a file.  The file may have been changed before an exception
was raised. -/
inductive Res
  | ok (f : File)
  | err (e : Exc) (f : File)
  deriving DecidableEq, Repr

/-- The file after the call. -/
def Res.file : Res → File
  | .ok f => f
  | .err _ f => f

/-- The next call, unless there was an exception. -/
def Res.andThen : Res → (File → Res) → Res
  | .ok f, k => k f
  | .err e f, _ => .err e f

/-- `"results"`. -/
def results : Str := "results".toList

/-- `INPUTGROUPS`, a5py/ascot5io/coreio/fileapi.py:58-59. -/
def inputGroups : List Str :=
  ["options".toList, "bfield".toList, "efield".toList, "marker".toList, "plasma".toList,
   "neutral".toList, "wall".toList, "boozer".toList, "mhd".toList, "asigma".toList, "nbi".toList]

/-- All groups of a file with the names of their parents, in the order of the nested loops over
`f.keys()` and `f[parent].keys()`. -/
def all (f : File) : List (Str × Grp) := f.flatMap fun p => p.groups.map fun g => (p.name, g)

/-! ## Names -/

/-- `get_qid`, a5py/ascot5io/coreio/fileapi.py:246-273: the last ten characters of a name or a
path. -/
def getQid (s : Str) : Option Str :=
  if 10 ≤ s.length ∧ (s.drop (s.length - 10)).all Char.isDigit then some (s.drop (s.length - 10))
  else none

/-- `get_type`, a5py/ascot5io/coreio/fileapi.py:275-304, for a name without slashes. -/
def getType (s : Str) : Option Str :=
  if 12 < s.length ∧ ¬ (s.take (s.length - 11)).all Char.isDigit then some (s.take (s.length - 11))
  else none

/-- The path of a group, `group.name`. -/
def path (pn gn : Str) : Str := '/' :: pn ++ '/' :: gn

/-- `get_group`, a5py/ascot5io/coreio/fileapi.py:306-326: the first group whose name contains the
QID. -/
def getGroup (f : File) (qid : Str) : Option (Str × Grp) :=
  (all f).find? fun x => decide (qid <:+: x.2.name)

/-! ## Changing a file -/

/-- Changes the parent with the given name. -/
def setParent (f : File) (pn : Str) (h : Parent → Parent) : File :=
  f.map fun p => if p.name = pn then h p else p

/-- Changes the group with the given name of the parent with the given name. -/
def setGrp (f : File) (pn gn : Str) (h : Grp → Grp) : File :=
  setParent f pn fun p => ⟨p.name, p.active, p.groups.map fun g => if g.name = gn then h g else g⟩

/-- A new group among the others.  `h5py` iterates in the order of the names. -/
def insertGrp (g : Grp) : List Grp → List Grp
  | [] => [g]
  | x :: xs => if g.name < x.name then g :: x :: xs else x :: insertGrp g xs

/-- A new parent among the others. -/
def insertParent (p : Parent) : File → File
  | [] => [p]
  | x :: xs => if p.name < x.name then p :: x :: xs else x :: insertParent p xs

/-- `f.require_group(parent)`: creates the parent if there is none. -/
def require (f : File) (pn : Str) : File :=
  if ∃ p ∈ f, p.name = pn then f else insertParent ⟨pn, none, []⟩ f

/-- `del f[path]` for a group of a parent. -/
def delGrp (f : File) (pn gn : Str) : File :=
  setParent f pn fun p => ⟨p.name, p.active, p.groups.filter fun g => g.name ≠ gn⟩

/-- `del f[path]` for a parent. -/
def delParent (f : File) (pn : Str) : File := f.filter fun p => p.name ≠ pn

/-- The groups of the parent with the given name. -/
def groupsOf (f : File) (pn : Str) : List Grp :=
  match f.find? fun p => p.name = pn with
  | none => []
  | some p => p.groups

/-- `set_active`, a5py/ascot5io/coreio/fileapi.py:71-88.  `get_group` returns `None` for a group that
is not there, and `None` has no attribute `parent`. -/
def setActive (f : File) (s : Str) : Res :=
  match getQid s with
  | none => .err .noData f
  | some q =>
    match getGroup f q with
    | none => .err .attr f
    | some x => .ok (setParent f x.1 fun p => ⟨p.name, some q, p.groups⟩)

/-- `get_active`, a5py/ascot5io/coreio/fileapi.py:90-121, for a parent that is there. -/
def getActive (f : File) (pn : Str) : Except Exc (Str × Grp) :=
  match f.find? fun p => p.name = pn with
  | none => .error .noData
  | some p =>
    match p.active with
    | none => .error .key
    | some q =>
      match getGroup f q with
      | none => .error .noData
      | some x => .ok x

/-- `set_desc`, a5py/ascot5io/coreio/fileapi.py:154-173. -/
def setDesc (f : File) (s d : Str) : Res :=
  match getQid s with
  | none => .err .noData f
  | some q =>
    match getGroup f q with
    | none => .err .attr f
    | some x => .ok (setGrp f x.1 x.2.name fun g => ⟨g.name, some d, g.date, g.refs⟩)

/-- `_set_date`, a5py/ascot5io/coreio/fileapi.py:199-220. -/
def setDate (f : File) (s d : Str) : Res :=
  match getQid s with
  | none => .err .noData f
  | some q =>
    match getGroup f q with
    | none => .err .attr f
    | some x => .ok (setGrp f x.1 x.2.name fun g => ⟨g.name, g.desc, some d, g.refs⟩)

/-- `get_date`, a5py/ascot5io/coreio/fileapi.py:222-244. -/
def getDate (f : File) (s : Str) : Except Exc Str :=
  match getQid s with
  | none => .error .noData
  | some q =>
    match getGroup f q with
    | none => .error .attr
    | some x =>
      match x.2.date with
      | none => .error .key
      | some d => .ok d

/-- `get_desc`, a5py/ascot5io/coreio/fileapi.py:175-197. -/
def getDesc (f : File) (s : Str) : Except Exc Str :=
  match getQid s with
  | none => .error .noData
  | some q =>
    match getGroup f q with
    | none => .error .attr
    | some x =>
      match x.2.desc with
      | none => .error .key
      | some d => .ok d

/-- The name of a new group, a5py/ascot5io/coreio/fileapi.py:425. -/
def nameOf (type qid : Str) : Str := type ++ '_' :: qid

/-- `parent.create_group(name)`: `ValueError` if there is one already. -/
def createGroup (f : File) (pn gn : Str) : Res :=
  if ∃ g ∈ groupsOf f pn, g.name = gn then .err .value f
  else .ok (setParent f pn fun p => ⟨p.name, p.active, insertGrp ⟨gn, none, none, []⟩ p.groups⟩)

/-- `"TAG"`, a5py/ascot5io/coreio/fileapi.py:665. -/
def defaultDesc : Str := "TAG".toList

/-- `add_group`, a5py/ascot5io/coreio/fileapi.py:398-438, with the generated QID and date. -/
def addGroup (f : File) (pn type : Str) (desc : Option Str) (qid date : Str) : Res :=
  ((((createGroup (require f pn) pn (nameOf type qid)).andThen fun f =>
    setDesc f (nameOf type qid) (desc.getD defaultDesc)).andThen fun f =>
    setDate f (nameOf type qid) date).andThen fun f =>
    if (groupsOf f pn).length = 1 then setActive f (nameOf type qid) else .ok f)

/-- The loop of `remove_group` over the groups that remain,
a5py/ascot5io/coreio/fileapi.py:504-509: the date and the group found so far.  `none` is the group
that has been removed. -/
def newest (f : File) : List Grp → Str → Option Str → Except Exc (Option Str)
  | [], _, best => .ok best
  | g :: gs, date, best =>
    match getDate f g.name with
    | .error e => .error e
    | .ok d => if date < d then newest f gs d (some g.name) else newest f gs date best

/-- The removal itself, a5py/ascot5io/coreio/fileapi.py:496-511, of the group `gn` of the parent
`pn`.  A group that has been deleted has no name, so that `set_active` fails if no group with a date
is left. -/
def removeData (f : File) (pn gn : Str) : Res :=
  match getActive f pn with
  | .error e => .err e f
  | .ok x =>
    if x.1 = pn ∧ x.2.name = gn then
      if (groupsOf (delGrp f pn gn) pn).length = 0 then .ok (delParent (delGrp f pn gn) pn)
      else
        match newest (delGrp f pn gn) (groupsOf (delGrp f pn gn) pn) ['0'] none with
        | .error e => .err e (delGrp f pn gn)
        | .ok none => .err .type (delGrp f pn gn)
        | .ok (some s) => setActive (delGrp f pn gn) s
    else .ok (delGrp f pn gn)

/-- `remove_group`, a5py/ascot5io/coreio/fileapi.py:440-513, for the name of a parent or for the
name, the path or the QID of a group.  The name of the parent of the results is `/results` and never
`results`, so that the test in line 480 is only whether there are results. -/
def removeGroup (f : File) (s : Str) : Res :=
  if ∃ p ∈ f, p.name = s then
    if ∃ g ∈ groupsOf f results, ∃ r ∈ g.refs, r.1 = s then .err .io f
    else .ok (delParent f s)
  else
    match getQid s with
    | none => .err .noData f
    | some q =>
      match getGroup f q with
      | none => .err .noData f
      | some x =>
        if ∃ g ∈ groupsOf f results, ∃ r ∈ g.refs, some r.2 = getQid (path x.1 x.2.name) then
          .err .io f
        else removeData f x.1 x.2.name

/-- `copy_group`, a5py/ascot5io/coreio/fileapi.py:515-573, from the file `fs` to the file `ft`;
`new` are the QID and the date for a copy with a new QID.  Both forms of the copy end in an exception
if the target has a group with that name (in the second form the one of `h5py`). -/
def copyGroup (fs ft : File) (s : Str) (new : Option (Str × Str)) : Res :=
  match getQid s with
  | none => .err .noData ft
  | some q =>
    match getGroup fs q with
    | none => .err .noData ft
    | some x =>
      if ∃ g ∈ groupsOf (require ft x.1) x.1, g.name = x.2.name then .err .io (require ft x.1)
      else
        let gn := match new with
          | none => x.2.name
          | some n => x.2.name.take (x.2.name.length - 11) ++ '_' :: n.1
        if ∃ g ∈ groupsOf (require ft x.1) x.1, g.name = gn then .err .value (require ft x.1)
        else
          ((Res.ok (setParent (require ft x.1) x.1 fun p =>
              ⟨p.name, p.active, insertGrp ⟨gn, x.2.desc, x.2.date, x.2.refs⟩ p.groups⟩)).andThen
            fun f => match new with
              | none => .ok f
              | some n => setDate f gn n.2).andThen
            fun f => if (groupsOf f x.1).length = 1 then setActive f gn else .ok f

/-- Whether all names in a parent end in a QID, which is what `get_qids` needs,
a5py/ascot5io/coreio/fileapi.py:328-359. -/
def qidsOk (f : File) (pn : Str) : Prop := ∀ g ∈ groupsOf f pn, (getQid g.name).isSome

instance (f : File) (pn : Str) : Decidable (qidsOk f pn) := by unfold qidsOk; infer_instance

/-- The first half of `removegroup`, a5py/ascot5io/coreio/tools.py:71-95.  The QID is looked for among
the keys of a dictionary, which are the names of the parents (line 89), so that this test finds
nothing; `remove_group` has its own.  `get_group` may return `None`, which has no name. -/
def removeTry (f : File) (s : Str) (force : Bool) : Res :=
  match getQid s with
  | none => .err .noData f
  | some q =>
    if force then removeGroup f s
    else
      match getGroup f q with
      | none => .err .attr f
      | some x =>
        match getType x.2.name with
        | none => .err .noData f
        | some t =>
          if t = "run".toList then removeGroup f s
          else if (∃ p ∈ f, p.name = results) ∧ qidsOk f results then removeGroup f s
          else .err .noData f

/-- The second half of `removegroup`, a5py/ascot5io/coreio/tools.py:100-127, with a test in line 121
that finds nothing either. -/
def removeParent (f : File) (s : Str) (force : Bool) : Res :=
  if force ∨ s = results then removeGroup f s
  else if (∃ p ∈ f, p.name = results) ∧ qidsOk f results then
    if (∃ p ∈ f, p.name = s) ∧ qidsOk f s then removeGroup f s else .err .noData f
  else removeGroup f s

/-- `removegroup`, a5py/ascot5io/coreio/tools.py:44-127 (`a5manage -r`). -/
def removeTool (f : File) (s : Str) (force : Bool) : Res :=
  match removeTry f s force with
  | .err .noData f' => removeParent f' s force
  | r => r

/-- `hdf5_interface_init_results`, src/hdf5_interface.c:342-473, for an output file that is there: the
group of a new run with the QIDs of the inputs (only those that are not empty, lines 387-440).  The
attributes are written one after the other; here they are written together.  A `ValueError` stands
for the return value 1. -/
def initResults (f : File) (kind qid desc date : Str) (refs : List (Str × Str)) : Res :=
  if ∃ g ∈ groupsOf (require f results) results, g.name = nameOf kind qid then
    .err .value (require f results)
  else .ok (setParent (require f results) results fun p =>
    ⟨p.name, some qid, insertGrp ⟨nameOf kind qid, some desc, some date, refs⟩ p.groups⟩)

/-! ## The tree -/

/-- The keys of `HDF5TOOBJ` that are types of input, a5py/ascot5io/__init__.py:31-44. -/
def objTypes : List Str :=
  ["B_TC".toList, "B_GS".toList, "B_2DS".toList, "B_3DS".toList, "B_3DST".toList, "B_STS".toList,
   "E_TC".toList, "E_1DS".toList, "prt".toList, "gc".toList, "fl".toList, "wall_2D".toList,
   "wall_3D".toList, "plasma_1D".toList, "plasma_1DS".toList, "plasma_1Dt".toList, "N0_1D".toList,
   "N0_3D".toList, "Boozer".toList, "MHD_STAT".toList, "MHD_NONSTAT".toList,
   "asigma_loc".toList, "opt".toList, "nbi".toList]

/-- The attributes of a node that refer to a group: the QID of the group. -/
abbrev Attrs := Str → Option Str

/-- `self[key] = ...`. -/
def Attrs.set (a : Attrs) (k v : Str) : Attrs := fun x => if x = k then some v else a x

/-- `delattr(self, key)`. -/
def Attrs.del (a : Attrs) (k : Str) : Attrs := fun x => if x = k then none else a x

/-- `key in self`, a5py/ascot5io/coreio/treeview.py:152-165, for a tag.  All other attributes and
methods of a node begin with an underscore or a lower case letter; the model counts every such name
as present. -/
def Attrs.has (a : Attrs) (k : Str) : Bool :=
  (a k).isSome || match k with
    | [] => false
    | c :: _ => c == '_' || c.isLower

/-- `desc2tag`, a5py/ascot5io/coreio/treeview.py:267-287. -/
def tagOf (desc : Str) : Str :=
  match ((desc.takeWhile (· ≠ ' ')).filter Char.isAlphanum).map Char.toUpper with
  | [] => "TAG".toList
  | c :: cs => if c.isDigit then "TAG".toList else c :: cs

/-- The name with an index, `tag0 + "_" + str(i)`. -/
def tagIdx (tag : Str) (i : ℕ) : Str := tag ++ '_' :: Nat.toDigits 10 i

/-- The loop for the next index that is free, a5py/ascot5io/coreio/treeview.py:304-308, with at most
`n` rounds. -/
def nextTag (a : Attrs) (tag0 : Str) : ℕ → Str → ℕ → Option Str
  | 0, _, _ => none
  | n + 1, tag, i => if a.has tag then nextTag a tag0 n (tagIdx tag0 i) (i + 1) else some tag

/-- One group in the loop over the tags, a5py/ascot5io/coreio/treeview.py:290-310: the attributes and
the repeated tags.  `none`: the loop above did not end in `n` rounds. -/
def addTag (n : ℕ) (s : Attrs × List Str) (x : Str × Str) : Option (Attrs × List Str) :=
  if s.1.has x.2 then
    let s' : Attrs × List Str :=
      if x.2 ∈ s.2 then s
      else ((match s.1 x.2 with
        | some v => s.1.set (tagIdx x.2 0) v
        | none => s.1), s.2 ++ [x.2])
    match nextTag s'.1 x.2 n x.2 0 with
    | none => none
    | some t => some (s'.1.set t x.1, s'.2)
  else some (s.1.set x.2 x.1, s.2)

/-- The loop over the tags, for groups with their tags. -/
def addTags (n : ℕ) : List (Str × Str) → Attrs × List Str → Option (Attrs × List Str)
  | [], s => some s
  | x :: xs, s =>
    match addTag n s x with
    | none => none
    | some s' => addTags n xs s'

/-- A node of the tree: the QIDs of its groups from the most recent on, the QID of the active group,
and its attributes. -/
structure Node where
  qids : List Str
  active : Str
  attrs : Attrs

/-- The order of the pairs of date and QID in Python. -/
def pairLe (a b : Str × Str) : Bool := decide (a.1 < b.1 ∨ (a.1 = b.1 ∧ a.2 ≤ b.2))

/-- `get_activeqid`, a5py/ascot5io/coreio/fileapi.py:136-152. -/
def getActiveQid (f : File) (pn : Str) : Except Exc Str := do
  let x ← getActive f pn
  match f.find? fun p => p.name = x.1 with
  | none => throw .key
  | some p =>
    match p.active with
    | none => throw .key
    | some q => return q

/-- `_add_child`, a5py/ascot5io/coreio/treeview.py:219-240. -/
def addChild (s : List Str × Attrs) (g : Grp) : Except Exc (List Str × Attrs) :=
  match getQid g.name with
  | none => .error .noData
  | some q => .ok (s.1 ++ [q], (s.2.set g.name q).set ('q' :: q) q)

/-- The date of the group with the QID, a5py/ascot5io/coreio/treeview.py:259-261. -/
def dateOf (f : File) (q : Str) : Except Exc Str :=
  match getGroup f q with
  | none => .error .attr
  | some x => getDate f (path x.1 x.2.name)

/-- `_finalize`, a5py/ascot5io/coreio/treeview.py:242-314, of the node for the parent `pn` with the
QIDs and attributes collected so far. -/
def finalize (f : File) (pn : Str) (s : List Str × Attrs) : Except Exc Node := do
  let q ← getActiveQid f pn
  match s.2 ('q' :: q) with
  | none => throw .attr
  | some act =>
    let dates ← s.1.mapM (dateOf f)
    let qids := (((dates.zip s.1).insertionSort fun a b => pairLe a b = true).map Prod.snd).reverse
    let tags ← qids.mapM fun q => (getDesc f q).map tagOf
    match addTags (qids.length + 2) (qids.zip tags) (s.2, []) with
    | none => throw .value
    | some r => return ⟨qids, act, r.2.foldl Attrs.del r.1⟩

/-- `InputNode.__init__`, a5py/ascot5io/coreio/treeview.py:366-389. -/
def inputNode (f : File) (p : Parent) : Except Exc Node := do
  let s ← p.groups.foldlM (init := (([], fun _ => none) : List Str × Attrs)) fun s g =>
    match getType g.name with
    | none => .error .noData
    | some t => if t ∈ objTypes then addChild s g else .error .key
  finalize f p.name s

/-- The first word of the name of a result, `path.split("/")[-1].split("_")[0]`. -/
def firstWord (s : Str) : Str := s.takeWhile (· ≠ '_')

/-- The tree: the nodes of the inputs, the inputs of each run, and the node of the results. -/
structure Tree where
  inputs : List (Str × Node)
  runs : List (Str × List (Str × Str))
  root : Option Node

/-- One run: its kind, a5py/ascot5io/__init__.py:173-180, and its inputs,
a5py/ascot5io/coreio/treeview.py:451-453 with `get_inputqids`. -/
def runNode (inputs : List (Str × Node)) (g : Grp) : Except Exc (Str × List (Str × Str)) :=
  if firstWord g.name = "run".toList ∨ firstWord g.name = "afsi".toList ∨
      firstWord g.name = "bbnbi".toList then do
    let refs ← (g.refs.filter fun r => r.1 ∈ inputGroups).mapM fun r =>
      match inputs.find? fun x => x.1 = r.1 with
      | none => .error .attr
      | some x =>
        match x.2.attrs ('q' :: r.2) with
        | none => .error .attr
        | some q => .ok (r.1, q)
    return (g.name, refs)
  else .error .value

/-- `RootNode._build`, a5py/ascot5io/coreio/treeview.py:556-597. -/
def build (f : File) : Except Exc Tree := do
  let inputs ← (f.filter fun p => p.name ∈ inputGroups).mapM fun p => do
    let n ← inputNode f p
    return (p.name, n)
  match f.find? fun p => p.name = results with
  | none => return ⟨inputs, [], none⟩
  | some p =>
    let runs ← p.groups.mapM (runNode inputs)
    let s ← p.groups.foldlM (init := (([], fun _ => none) : List Str × Attrs)) addChild
    let n ← finalize f results s
    return ⟨inputs, runs, some n⟩

/-! ## Histories -/

/-- What is done to a file: creating an input (`create_input`), removing a group or all groups of a
parent (`destroy`, `removegroup`), activating (`activate`, `a5manage -a`) and describing (`set_desc`)
a group, and a simulation that writes its results to this file. -/
inductive Op
  | create (pn type qid date : Str) (activate : Bool) (desc : Option Str)
  | remove (s : Str)
  | removeTool (s : Str) (force : Bool)
  | activate (s : Str)
  | describe (s d : Str)
  | simulate (kind qid desc date : Str) (refs : List (Str × Str))

/-- `create_input`, a5py/ascot5io/__init__.py:239-263, without the datasets. -/
def createInput (f : File) (pn type qid date : Str) (activate : Bool) (desc : Option Str) : Res :=
  ((addGroup f pn type none qid date).andThen fun f =>
    if activate then setActive f (nameOf type qid) else .ok f).andThen fun f =>
    match desc with
    | none => .ok f
    | some d => setDesc f (path pn (nameOf type qid)) d

/-- One operation. -/
def Op.run (f : File) : Op → Res
  | .create pn type qid date act desc => createInput f pn type qid date act desc
  | .remove s => removeGroup f s
  | .removeTool s force => FileTree.removeTool f s force
  | .activate s => setActive f s
  | .describe s d => setDesc f s d
  | .simulate kind qid desc date refs => initResults f kind qid desc date refs

end Ascot.FileTree
