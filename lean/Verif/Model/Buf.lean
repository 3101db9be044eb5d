/-!
# Arrays obtained from `malloc`

An element that has not been written, or one outside the array, cannot be read: `none`.
-/
namespace Ascot.Buf
variable {K : Type}

structure Buf (K : Type) where
  size : Nat
  val : Nat → Option K

/-- `malloc`: nothing has been written. -/
def Buf.new (size : Nat) : Buf K := ⟨size, fun _ => none⟩

/-- `b[i]`; the index is a C `int`, so it can be negative. -/
def Buf.get (b : Buf K) (i : Int) : Option K := if 0 ≤ i ∧ i < b.size then b.val i.toNat else none

/-- `b[i] = v`, undefined outside the array. -/
def Buf.set (b : Buf K) (i : Nat) (v : K) : Option (Buf K) :=
  if i < b.size then some ⟨b.size, fun j => if j = i then some v else b.val j⟩ else none

/-- A sequence of assignments. -/
def Buf.run (b : Buf K) : List (Nat × K) → Option (Buf K)
  | [] => some b
  | w :: ws => (b.set w.1 w.2).bind fun b' => b'.run ws

/-- A new array after a sequence of assignments. -/
def fill (size : Nat) (ws : List (Nat × K)) : Option (Buf K) := (Buf.new size).run ws

end Ascot.Buf
