/-!
# Linked list of integers (`src/list.c`)

Memory is a partial map from addresses to nodes.  A `none` result of an
operation is undefined behaviour: dereferencing an address that is not
allocated, reading a `data` member that was never written, freeing twice, or
`malloc` returning an address in use.  The address that `malloc` returns is an
argument of the operation (any allocator is covered).  `while` loops take fuel;
running out of fuel is also `none`, and the theorems give explicit sufficient fuel.
-/
namespace Ascot.ListInt

abbrev Addr := Nat

/-- `list_int_node`, src/list.h.  `data = none` means not yet written. -/
structure Node where
  data : Option Int
  next : Option Addr

abbrev Heap := Addr → Option Node

def Heap.set (h : Heap) (a : Addr) (n : Option Node) : Heap :=
  fun b => if b = a then n else h b

/-- `malloc` returning address `a`; members are uninitialised. -/
def malloc (h : Heap) (a : Addr) : Option Heap :=
  match h a with
  | none => some (h.set a (some ⟨none, none⟩))
  | some _ => none

/-- `free`. -/
def free (h : Heap) (a : Addr) : Option Heap :=
  match h a with
  | none => none
  | some _ => some (h.set a none)

/-- `list_int_create`, src/list.c:16-21. -/
def create (h : Heap) (a : Addr) : Option Heap := do
  let h ← malloc h a
  return h.set a (some ⟨some 0, none⟩)

/-- The loop `while(node->next != NULL) node = node->next`,
src/list.c:50-52 and 89-92, also counting the iterations. -/
def walk (h : Heap) : Nat → Addr → Nat → Option (Addr × Nat)
  | 0, _, _ => none
  | fuel + 1, node, i =>
    match h node with
    | none => none
    | some n =>
      match n.next with
      | none => some (node, i)
      | some b => walk h fuel b (i + 1)

/-- `list_int_add`, src/list.c:48-59; `a` is the address returned by `malloc`. -/
def add (fuel : Nat) (h : Heap) (list : Addr) (data : Int) (a : Addr) : Option Heap := do
  let r ← walk h fuel list 0
  let node := r.1
  let h ← malloc h a
  let h := h.set a (some ⟨none, none⟩)
  let n ← h node
  let h := h.set node (some ⟨n.data, some a⟩)
  let n ← h node
  return h.set node (some ⟨some data, n.next⟩)

/-- `list_int_get`, src/list.c:69-77: follow `index` links, then read `data`. -/
def get (h : Heap) : Nat → Addr → Option Int
  | 0, node => do (← h node).data
  | k + 1, node => do
    let n ← h node
    let b ← n.next
    get h k b

/-- `list_int_size`, src/list.c:86-94. -/
def size (fuel : Nat) (h : Heap) (list : Addr) : Option Nat := do
  return (← walk h fuel list 0).2

/-- The loop of `list_int_free`, src/list.c:33-38: `k` iterations remain, then
the last node is freed. -/
def freeLoop : Nat → Heap → Addr → Option Addr → Option Heap
  | 0, h, node, _ => free h node
  | k + 1, h, node, nextNode => do
    let h ← free h node
    let node ← nextNode
    let n ← h node
    freeLoop k h node n.next

/-- `list_int_free`, src/list.c:28-40.  Returns the new memory and the new value
of the caller's handle (`NULL`). -/
def freeList (fuel : Nat) (h : Heap) (list : Addr) : Option (Heap × Option Addr) := do
  let n ← size fuel h list
  let nd ← h list
  let h ← freeLoop n h list nd.next
  return (h, none)

/-- A sequence of `list_int_add` calls with the values and the addresses that
`malloc` returned. -/
def addAll (fuel : Nat) (list : Addr) : Heap → List (Int × Addr) → Option Heap
  | h, [] => some h
  | h, (x, a) :: r => do
    let h ← add fuel h list x a
    addAll fuel list h r

end Ascot.ListInt
