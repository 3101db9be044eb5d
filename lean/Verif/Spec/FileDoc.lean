import Verif.Model.FileTree

/-!
# What a user relies on in the groups of a file

Documented in `doc/dataform.rst` and in the comments of `a5py/ascot5io/coreio/fileapi.py`.  Only the
contents of a file are mentioned here, none of the functions that change it.
-/
namespace Ascot.FileDoc
open FileTree (File Str)

/-- What there is to know about a group. -/
structure Entry where
  parent : Str
  type : Str
  qid : Str
  desc : Str
  date : Str
  refs : List (Str × Str)

/-- A QID: ten digits. -/
def IsQid (q : Str) : Prop := q.length = 10 ∧ ∀ c ∈ q, c.isDigit = true

/-- The file has this group. -/
def Has (f : File) (e : Entry) : Prop :=
  IsQid e.qid ∧ ∃ p ∈ f, p.name = e.parent ∧
    ⟨e.type ++ '_' :: e.qid, some e.desc, some e.date, e.refs⟩ ∈ p.groups

/-- The active group of the parent is the one with this QID. -/
def Active (f : File) (pn q : Str) : Prop := ∃ p ∈ f, p.name = pn ∧ p.active = some q

/-- A date that begins with a year. -/
def IsDate (d : Str) : Prop := ∃ c cs, d = c :: cs ∧ '0' < c

/-- The kinds of results. -/
def kinds : List Str := ["run".toList, "afsi".toList, "bbnbi".toList]

/-- A file in which everything refers to something: there are no two groups with the same QID, every
group has a type, a QID, a description and a date, every parent has an active group, which is one of
its own, and the inputs that a result says it has used are there. -/
structure Consistent (f : File) : Prop where
  unique : ∀ e e', Has f e → Has f e' → e.qid = e'.qid → e = e'
  complete : ∀ p ∈ f, ∀ g ∈ p.groups, ∃ e, Has f e ∧ e.parent = p.name ∧
    g.name = e.type ++ '_' :: e.qid ∧ g.desc = some e.desc ∧ g.date = some e.date
  active : ∀ p ∈ f, ∃ e, Has f e ∧ e.parent = p.name ∧ Active f p.name e.qid
  inputs : ∀ e, Has f e → ∀ r ∈ e.refs, ∃ i, Has f i ∧ i.parent = r.1 ∧ i.qid = r.2

/-- No group has this QID. -/
def Fresh (f : File) (q : Str) : Prop := ∀ e, Has f e → e.qid ≠ q

/-- A result has used this input. -/
def Used (f : File) (q : Str) : Prop :=
  ∃ r, Has f r ∧ r.parent = FileTree.results ∧ ∃ k, (k, q) ∈ r.refs

/-- What operations are considered.  The QIDs that are generated are new, the types are those that
`create_input` knows, a simulation has read its inputs from this file.  Anything else can be any
string. -/
def Allowed (f : File) : FileTree.Op → Prop
  | .create pn type qid date _ _ =>
    pn ∈ FileTree.inputGroups ∧ type ∈ FileTree.objTypes ∧ IsQid qid ∧ IsDate date ∧ Fresh f qid
  | .simulate kind qid _ date refs =>
    kind ∈ kinds ∧ IsQid qid ∧ IsDate date ∧ Fresh f qid ∧
      ∀ r ∈ refs, r.1 ∈ FileTree.inputGroups ∧ ∃ i, Has f i ∧ i.parent = r.1 ∧ i.qid = r.2
  | _ => True

/-- What groups are copied from the file `fs` to the file `f`: those whose inputs are in that file and
whose QID is new to it, with their own QID and date or with a new QID and date. -/
structure Copyable (fs f : File) (e : Entry) (new : Option (Str × Str)) : Prop where
  source : Has fs e
  inputs : ∀ r ∈ e.refs, ∃ i, Has f i ∧ i.parent = r.1 ∧ i.qid = r.2
  fresh : Fresh f e.qid
  new : ∀ n, new = some n → IsQid n.1 ∧ Fresh f n.1 ∧ IsDate n.2

/-- The files that can come about from an empty one, with copies from other such files. -/
inductive Reach : File → Prop
  | new : Reach []
  | step {f : File} {op : FileTree.Op} : Reach f → Allowed f op → Reach (op.run f).file
  | copy {fs f : File} {e : Entry} {w : Str} {new : Option (Str × Str)} :
      Reach fs → Reach f → Copyable fs f e new →
      Reach (FileTree.copyGroup fs f (w ++ e.qid) new).file

/-! ## The tree -/

/-- The tag of a group: the first word of the description in capital letters and without special
characters, or `TAG` if that is nothing or begins with a digit. -/
def TagOf (desc tag : Str) : Prop :=
  ∃ word rest, desc = word ++ rest ∧ ' ' ∉ word ∧ (∀ c cs, rest = c :: cs → c = ' ') ∧
    ((tag = (word.filter Char.isAlphanum).map Char.toUpper ∧
        ∃ c cs, tag = c :: cs ∧ c.isDigit = false) ∨
     (tag = "TAG".toList ∧ ∀ c ∈ (((word.filter Char.isAlphanum).map Char.toUpper).head?),
        c.isDigit = true))

/-- A tag with a number. -/
def numbered (tag : Str) (i : ℕ) : Str := tag ++ '_' :: Nat.toDigits 10 i

/-- What a user sees of a parent: its groups from the most recent to the oldest, its active group,
and what the names of its attributes refer to.  A group is found by its name and by `q` and its QID.
The tag of a group refers to that group if no other group of the parent has this tag.  Otherwise
the tag refers to nothing, and the tag with the number `i` refers to the group that comes `i`-th
among those with this tag. -/
structure NodeOf (f : File) (pn : Str) (n : FileTree.Node) : Prop where
  groups : ∀ q, q ∈ n.qids ↔ ∃ e, Has f e ∧ e.parent = pn ∧ e.qid = q
  once : n.qids.Nodup
  order : n.qids.Pairwise fun a b => ∀ e e', Has f e → Has f e' → e.qid = a → e'.qid = b →
    e'.date ≤ e.date
  active : Active f pn n.active
  names : ∀ e, Has f e → e.parent = pn → n.attrs (e.type ++ '_' :: e.qid) = some e.qid ∧
    n.attrs ('q' :: e.qid) = some e.qid
  tags : ∀ tag, (∃ e, Has f e ∧ e.parent = pn ∧ TagOf e.desc tag) →
    ∃ same : List Str, same.Sublist n.qids ∧
      (∀ q, q ∈ same ↔ ∃ e, Has f e ∧ e.parent = pn ∧ e.qid = q ∧ TagOf e.desc tag) ∧
      n.attrs tag = (if same.length = 1 then same.head? else none) ∧
      ∀ i, n.attrs (numbered tag i) = if same.length = 1 then none else same[i]?
  own : ∀ k q, n.attrs k = some q → ∃ e, Has f e ∧ e.parent = pn ∧ e.qid = q

/-- The tree shows all groups of a file, and with each result the inputs that it has used. -/
structure TreeOf (f : File) (t : FileTree.Tree) : Prop where
  inputs : ∀ e, Has f e → e.parent ≠ FileTree.results → ∃ n, (e.parent, n) ∈ t.inputs
  input : ∀ x ∈ t.inputs, NodeOf f x.1 x.2
  once : (t.inputs.map Prod.fst).Nodup
  results : (∃ e, Has f e ∧ e.parent = FileTree.results) ↔ t.root ≠ none
  result : ∀ n, t.root = some n → NodeOf f FileTree.results n
  runs : ∀ x, x ∈ t.runs ↔
    ∃ e, Has f e ∧ e.parent = FileTree.results ∧ x = (e.type ++ '_' :: e.qid, e.refs)

end Ascot.FileDoc
