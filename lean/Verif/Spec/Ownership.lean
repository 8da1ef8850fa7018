import Verif.Model.Ownership

/-!
# What it means that the C code keeps its books (specification for C94 to C97)
-/

namespace Clever.Spec

/-- One reference if the pointer is to `x`. -/
def refs (p : Option Obj) (x : Obj) : Nat := if p = some x then 1 else 0

/-- The C code owns exactly the references in the three pointers of the parser object and, besides,
`base x` references to each `x` on behalf of others.  Nothing is known of objects yet to be made. -/
def Balanced {α : Type} (base : Obj → Nat) (s : CState (PData α)) : Prop :=
  (∀ x, s.led.own x =
    base x + refs s.data.inputIter x + refs s.data.fields x + refs s.data.buf x) ∧
  ∀ n, s.led.next ≤ n → s.led.own (.made n) = 0

/-- The references to `x` among the given optional arguments. -/
def kwRefs : List KwArg → Obj → Nat
  | [], _ => 0
  | k :: ks, x => refs k.obj x + kwRefs ks x

/-- An object that the caller passed, not one yet to be made. -/
def Passed (p : Option Obj) : Prop := ∀ n, p ≠ some (.made n)

/-- A ledger with the given references, in which nothing is known of objects yet to be made. -/
def Owns (own : Obj → Nat) (l : Ledger) : Prop :=
  (∀ x, l.own x = own x) ∧ ∀ n, l.next ≤ n → l.own (.made n) = 0

/-- The block `field` has room for what it holds, and a missing block has size 0. -/
def RoomOk {α : Type} (d : PData α) : Prop :=
  d.field.length ≤ d.bufSize ∧ (d.buf = none → d.bufSize = 0)

/-- No call fails. -/
def NoFailure (fails : Fails) : Prop := ∀ c n, fails c n = false

/-- The iterator delivers the items and does not call the parser. -/
def plainScript (items : List Item) : List Event := items.map .item

end Clever.Spec
