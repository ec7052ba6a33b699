/-!
# Model of the memory of vectors

`Source/Core/BareMetal/L0Types/Vector.h`: the vectors of a program are numbered.  The memory that vectors allocate is in blocks, that are never
used again after they are freed; the arrays of the program, on which a vector can be made, are apart.  `none` is undefined behaviour: memory that is freed twice,
or used after it was freed, or beyond its end.  Elements are integers.
-/
namespace Verif.VectorMem

/-- `Vector.h:193` `dataPointer`: null, a block, or an array of the program. -/
inductive Ptr where
  | null
  | block (b : Nat)
  | ext (e : Nat)
deriving DecidableEq, Repr

/-- `Vector.h:193-203`: `dataPointer`, `numberOfElements`, `canDestroy`. -/
structure Vec where
  ptr : Ptr
  n : Nat
  own : Bool
deriving DecidableEq, Repr

/-- The blocks that are allocated, the number of the next one, the arrays of the program and its vectors. -/
structure State where
  heap : Nat → Option (List Int)
  next : Nat
  ext : Nat → List Int
  vecs : Nat → Vec

/-- `Vector.h:214-218` -/
def empty : Vec := ⟨.null, 0, false⟩

/-- A program before its first vector. -/
def init (ext : Nat → List Int) : State := ⟨fun _ => none, 0, ext, fun _ => empty⟩

/-- The members of a vector get new values. -/
def put (i : Nat) (v : Vec) (s : State) : State := { s with vecs := fun j => if j = i then v else s.vecs j }

/-- `Vector.h:354-361` `FreeMemory` -/
def free (i : Nat) (s : State) : Option State :=
  if (s.vecs i).own then
    match (s.vecs i).ptr with
    | .null => some (put i empty s)
    | .block b =>
      match s.heap b with
      | none => none
      | some _ => some (put i empty { s with heap := fun x => if x = b then none else s.heap x })
    | .ext _ => none
  else some s

/-- `new T[n]` with what it holds then, for the vector `i`. -/
def alloc (i : Nat) (l : List Int) (s : State) : State :=
  put i ⟨.block s.next, l.length, true⟩ { s with heap := fun x => if x = s.next then some l else s.heap x, next := s.next + 1 }

/-- The elements that a vector shows. -/
def contents (s : State) (v : Vec) : Option (List Int) :=
  match v.ptr with
  | .null => if v.n = 0 then some [] else none
  | .block b => (s.heap b).bind fun l => if v.n ≤ l.length then some (l.take v.n) else none
  | .ext e => if v.n ≤ (s.ext e).length then some ((s.ext e).take v.n) else none

/-- `Vector.h:302-323` (and `223-244` of the copy constructor, which is the same on a new vector). -/
def copyInto (i j : Nat) (s : State) : Option State :=
  if (s.vecs j).n > 0 ∧ (s.vecs j).ptr ≠ .null then
    if (s.vecs j).own then (contents s (s.vecs j)).map fun l => alloc i l s
    else some (put i ⟨(s.vecs j).ptr, (s.vecs j).n, false⟩ s)
  else some (put i empty s)

/-- `Vector.h:299-326` `operator =` -/
def assign (i j : Nat) (s : State) : Option State :=
  if i ≠ j then (free i s).bind (copyInto i j) else some s

/-- `Vector.h:263-274` `SetSize`; `junk`: what the new memory holds. -/
def setSize (i : Nat) (junk : List Int) (s : State) : Option State :=
  (free i s).map fun s1 => if junk.length > 0 then alloc i junk s1 else put i empty s1

/-- `Vector.h:285-289`, and the place is free for another vector. -/
def destroy (i : Nat) (s : State) : Option State := (free i s).map (put i empty)

/-- `Vector.h:248-252`: a new vector in the place `i`, where the one before is destroyed. -/
def make (i : Nat) (junk : List Int) (s : State) : Option State := (destroy i s).map (alloc i junk)

/-- `Vector.h:255-260` and `278-282`: a new vector on the first `n` elements of an array of the program. -/
def borrow (i e n : Nat) (s : State) : Option State := (destroy i s).map (put i ⟨.ext e, n, false⟩)

/-- `Vector.h:255-260` with `GetDataPointer` (`329-332`) of another vector. -/
def view (i j : Nat) (s : State) : Option State := (destroy i s).map fun s1 => put i ⟨(s1.vecs j).ptr, (s1.vecs j).n, false⟩ s1

/-- `Vector.h:293-296`: an element is written through `operator []`. -/
def write (i k : Nat) (x : Int) (s : State) : Option State :=
  match (s.vecs i).ptr with
  | .null => none
  | .block b =>
    match s.heap b with
    | none => none
    | some l => if k < l.length then some { s with heap := fun y => if y = b then some (l.set k x) else s.heap y } else none
  | .ext e => if k < (s.ext e).length then some { s with ext := fun y => if y = e then (s.ext e).set k x else s.ext y } else none

/-- What a program does with vectors (`Vector.h:214-361`). -/
inductive Op where
  | assign (i j : Nat)
  | setSize (i : Nat) (junk : List Int)
  | destroy (i : Nat)
  | make (i : Nat) (junk : List Int)
  | borrow (i e n : Nat)
  | view (i j : Nat)
  | write (i k : Nat) (x : Int)

/-- The state after an operation. -/
def step (s : State) : Op → Option State
  | .assign i j => assign i j s
  | .setSize i junk => setSize i junk s
  | .destroy i => destroy i s
  | .make i junk => make i junk s
  | .borrow i e n => borrow i e n s
  | .view i j => view i j s
  | .write i k x => write i k x s

/-- The state after a history. -/
def run (s : State) : List Op → Option State
  | [] => some s
  | op :: ops => (step s op).bind fun s' => run s' ops

end Verif.VectorMem
