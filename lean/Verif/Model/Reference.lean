/-!
# Model of `BareMetal/L2Objects/Reference.cpp` and of the reference counter of `Object`

The store holds objects with their counter (`Object.h` `referenceCounter`) and reference slots: a `Reference` variable
(`owner = none`) or a `Reference` member of an object (for instance the node of a container).  Destroying an object
destroys its reference members.  `none` as a result means undefined behaviour: touching a destroyed object or a
reference that lived in one.
-/
namespace Verif.Ref

/-- A `Reference` (`Reference.h:180-185` `objectPointer`). -/
structure Slot where
  id : Nat
  owner : Option Nat
  target : Option Nat
  deriving DecidableEq

/-- The store: counter of each live object, existing references, destroyed objects (latest first). -/
structure St where
  cnt : Nat → Option Nat
  slots : List Slot
  log : List Nat

def setCnt (c : Nat → Option Nat) (o : Nat) (v : Option Nat) : Nat → Option Nat := fun x => if x = o then v else c x

def St.find (σ : St) (s : Nat) : Option Slot := σ.slots.find? (fun x => x.id == s)

def St.setTarget (σ : St) (s : Nat) (t : Option Nat) : St :=
  { σ with slots := σ.slots.map (fun x => if x.id = s then { x with target := t } else x) }

/-- `Reference.cpp:158-167` and `Object.cpp:344-348`: release one reference to each object of the list: decrement, and
when zero is read, destroy the object, which releases its reference members (`~Reference`, `Reference.cpp:94-96`)
depth first.  Simplification: a member disappears when the destruction of its object begins, not when it ends. -/
def release : Nat → St → List Nat → Option St
  | _, σ, [] => some σ
  | 0, _, _ => none
  | fuel + 1, σ, o :: rest =>
    match σ.cnt o with
    | none => none
    | some c =>
      if c - 1 = 0 then
        release fuel
          { cnt := setCnt σ.cnt o none
            slots := σ.slots.filter (fun x => x.owner ≠ some o)
            log := o :: σ.log }
          ((σ.slots.filter (fun x => x.owner = some o)).filterMap (·.target) ++ rest)
      else release fuel { σ with cnt := setCnt σ.cnt o (some (c - 1)) } rest

/-- Enough fuel for a release. -/
def St.fuel (σ : St) : Nat := σ.slots.length + 1

/-- `Reference.cpp:158-167` `RemoveReference` on slot `s`; the slot must still exist when its pointer is cleared. -/
def removeReference (σ : St) (s : Nat) : Option St :=
  (σ.find s).bind fun x =>
  match x.target with
  | none => some σ
  | some o => (release σ.fuel (σ.setTarget s none) [o]).bind fun σ' => (σ'.find s).map fun _ => σ'

/-- Points slot `s` to `o` after `IncrementReferences` (`Object.cpp:350-353`); both must exist. -/
def pointTo (σ : St) (s o : Nat) : Option St :=
  (σ.find s).bind fun _ =>
  (σ.cnt o).map fun c => { σ.setTarget s (some o) with cnt := setCnt σ.cnt o (some (c + 1)) }

/-- `Reference.cpp:173-184` `operator=(const Reference &)`. -/
def assign (σ : St) (s t : Nat) : Option St :=
  if s = t then some σ
  else
    (removeReference σ s).bind fun σ =>
    (σ.find t).bind fun y =>
    match y.target with
    | none => some σ
    | some o => pointTo σ s o

/-- `Reference.cpp:81-88` `operator=(Object *)`. -/
def assignRaw (σ : St) (s o : Nat) : Option St := (removeReference σ s).bind fun σ => pointTo σ s o

/-- Calls: a new invalid reference (`Reference.cpp:52-54`) as a variable or a member of an object, a new object
(fresh identity, counter 0) assigned to a reference (`ReferenceT.h:202-218`; the new object appears after the release
of the previous one, which cannot touch it), assignment, copy construction (new
reference then assignment, `Reference.cpp:56-59`), release, destruction of a variable (`Reference.cpp:94-96`),
assignment of an object pointer. -/
inductive Op where
  | new (s : Nat) (owner : Option Nat)
  | create (s o : Nat)
  | assign (s t : Nat)
  | copy (s : Nat) (owner : Option Nat) (t : Nat)
  | remove (s : Nat)
  | drop (s : Nat)
  | assignRaw (s o : Nat)

def addSlot (σ : St) (s : Nat) (owner : Option Nat) : St := { σ with slots := ⟨s, owner, none⟩ :: σ.slots }

def step (σ : St) : Op → Option St
  | .new s w => some (addSlot σ s w)
  | .create s o => (removeReference σ s).bind fun σ => pointTo { σ with cnt := setCnt σ.cnt o (some 0) } s o
  | .assign s t => assign σ s t
  | .copy s w t => assign (addSlot σ s w) s t
  | .remove s => removeReference σ s
  | .drop s => (removeReference σ s).map fun σ => { σ with slots := σ.slots.filter (fun x => x.id ≠ s) }
  | .assignRaw s o => assignRaw σ s o

/-- `Reference.cpp:186-193` `NumberOfReferences`. -/
def numberOfReferences (σ : St) (s : Nat) : Option Nat :=
  (σ.find s).bind fun x =>
  match x.target with
  | none => some 0
  | some o => σ.cnt o

def init : St := ⟨fun _ => none, [], []⟩

/-! ## Concurrent release: `Object.cpp:344-348` and `Reference.cpp:158-167` are several atomic steps -/

/-- Position of a thread that drops its reference: before the atomic decrement, between the decrement and the reading
of the counter, after the test (and the possible `delete`). -/
inductive Pc where | ready | dec | done
  deriving DecidableEq

structure CSt where
  counter : Int
  pcs : List Pc
  /-- number of times the object has been deleted -/
  deletes : Nat
  /-- the counter of a deleted object has been read -/
  useAfterFree : Bool

/-- One atomic step of thread `i`. -/
def cstep (σ : CSt) (i : Nat) : CSt :=
  match σ.pcs[i]? with
  | some .ready => { σ with counter := σ.counter - 1, pcs := σ.pcs.set i .dec }
  | some .dec => { σ with
      pcs := σ.pcs.set i .done
      deletes := if σ.counter = 0 then σ.deletes + 1 else σ.deletes
      useAfterFree := σ.useAfterFree || decide (σ.deletes > 0) }
  | _ => σ

/-- `n` threads, each owning one of the `n` references. -/
def cinit (n : Nat) : CSt := ⟨n, List.replicate n .ready, 0, false⟩

def crun (σ : CSt) (sched : List Nat) : CSt := sched.foldl cstep σ

end Verif.Ref
