import Verif.Model.StaticList
/-!
# Model of `BareMetal/L1Portability/StaticStack.h` and `CircularStaticList.h`

Both are built on `StaticListHolder` (`Verif.Model.StaticList`): `none` is an access outside of the block.
`GetAllocatedMemoryConst` of the stack and the `StaticList` calls that `CircularStaticList` inherits are not modelled.
-/
namespace Verif.Stack
open Verif.StaticList (Holder Out)

/-- `uint32` subtraction. -/
def sub32 (a b : Nat) : Nat := (a + 2 ^ 32 - b) % 2 ^ 32

/-- Calls on a `StaticStack`.  `allocOk` is the outcome of the heap allocation. -/
inductive Op where
  | push (v : List UInt8) (allocOk : Bool)
  | pop
  | peek (position : Nat)
  | clean
  | getSize

/-- What a call shows: its success flag, the element copied out, the size. -/
structure Res where
  ok : Bool
  value : Option (List UInt8)
  size : Nat
deriving DecidableEq

/-- `StaticStack.h:135-163`. -/
def step (h : Holder) : Op → Option (Res × Holder)
  | .push v a => (StaticList.add h v a).map fun r => (⟨r.1, none, 0⟩, r.2)
  | .pop => (StaticList.extract h (sub32 h.size 1)).map fun r => (⟨r.1.isSome, r.1, 0⟩, r.2)
  | .peek p => (StaticList.peek h (sub32 (sub32 h.size p) 1)).map fun r => (⟨r.isSome, r, 0⟩, h)
  | .clean => some (⟨true, none, 0⟩, StaticList.clean h)
  | .getSize => some (⟨true, none, h.size⟩, h)

def run (h : Holder) : List Op → Option (List Res × Holder)
  | [] => some ([], h)
  | op :: ops => (step h op).bind fun r => (run r.2 ops).map fun q => (r.1 :: q.1, q.2)

/-! ### `CircularStaticList` -/

/-- `CircularStaticList.h:50-100`. -/
structure Circ where
  list : Holder
  index : Nat

/-- `CircularStaticList.h:106-114` constructor: one element per position, of unknown content (`init`). -/
def newCirc (es gran : Nat) (init : List (List UInt8)) : Option Circ :=
  (StaticList.run (StaticList.new es gran) (init.map fun v => .add v true)).map fun r => ⟨r.2, 0⟩

/-- Calls on a `CircularStaticList`. -/
inductive COp where
  | push (v : List UInt8)
  | pushOut (v : List UInt8)
  | getLast
  | getIndex

/-- `CircularStaticList.h:120-133` `PushData(data)`. -/
def pushData (c : Circ) (v : List UInt8) : Option (Bool × Circ) :=
  (StaticList.set c.list c.index v).map fun r =>
  let index := if r.1 then (c.index + 1) % 2 ^ 32 else c.index
  (r.1, ⟨r.2, if index = r.2.size then 0 else index⟩)

/-- `CircularStaticList.h:120-159`. -/
def cstep (c : Circ) : COp → Option (Res × Circ)
  | .push v => (pushData c v).map fun r => (⟨r.1, none, 0⟩, r.2)
  | .pushOut v =>
    (StaticList.peek c.list c.index).bind fun o =>
    match o with
    | some x => (pushData c v).map fun r => (⟨r.1, some x, 0⟩, r.2)
    | none => some (⟨false, none, 0⟩, c)
  | .getLast =>
    (StaticList.peek c.list (if c.index > 0 then c.index - 1 else sub32 c.list.size 1)).map fun o =>
      (⟨o.isSome, o, 0⟩, c)
  | .getIndex => some (⟨true, none, c.index⟩, c)

def crun (c : Circ) : List COp → Option (List Res × Circ)
  | [] => some ([], c)
  | op :: ops => (cstep c op).bind fun r => (crun r.2 ops).map fun q => (r.1 :: q.1, q.2)

end Verif.Stack
