import Verif.Model.ConfigCopy
/-!
# Model of the conversions between structures and configurations (`BareMetal/L4Configuration/TypeConversion.cpp`)

A structure in memory is a `Rec`: its class and its members with their values.  The layout of the members in memory is that of C84; the
elements of a vector or matrix of structures are in the order of the memory.  A member that is a vector of one structure is the same as the
structure (lines 745-750 and 905-910).  `conv` is `TypeConvert` followed by `ValidateBasicType` into a member (C41, C65-C68, C78, C79); its
first argument is the value that is there, which stands for the type.  Members that are pointers are numbers.
-/
namespace Verif.ConfigDb

mutual
/-- A structure. -/
inductive Rec (V : Type) where
  | mk (cls : Name) (ms : Mems V)
/-- Its members. -/
inductive Mems (V : Type) where
  | nil
  | basic (name : Name) (v : V) (rest : Mems V)
  | one (name : Name) (r : Rec V) (rest : Mems V)
  | many (name : Name) (dims : List Nat) (rs : Recs V) (rest : Mems V)
/-- The elements of a vector of structures. -/
inductive Recs (V : Type) where
  | nil
  | cons (r : Rec V) (rs : Recs V)
end

variable {V : Type}

/-- `TypeConversion.cpp:832-852`, `635-660`: the names of the elements in the order of the loops: `Printf("[%d]", n)` for each dimension. -/
def indexNames (name : Name) : List Nat → List Name
  | [] => [name]
  | d :: ds => (List.range d).flatMap fun i => indexNames (name ++ ('[' :: Nat.toDigits 10 i ++ [']'])) ds

mutual
/-- `TypeConversion.cpp:864-941` `ObjectToStructuredData`; `text` is the value of the name of the class. -/
def toRec (text : Name → V) : Rec V → St V → Option (Bool × St V)
  | .mk cls ms, s =>
    (call s (.write "Class".toList (text cls))).bind fun r =>
    if r.1 then toMems text ms r.2 else some (false, r.2)

/-- `TypeConversion.cpp:878-929`: the loop over the members. -/
def toMems (text : Name → V) : Mems V → St V → Option (Bool × St V)
  | .nil, s => some (true, s)
  | .basic name v rest, s =>
    (call s (.write name v)).bind fun r =>
    if r.1 then toMems text rest r.2 else some (false, r.2)
  | .one name x rest, s =>
    (call s (.createRelative name)).bind fun r1 =>
    if r1.1 then
      (toRec text x r1.2).bind fun r2 =>
      (call r2.2 (.moveToAncestor 1)).bind fun r3 =>
      if r2.1 && r3.1 then toMems text rest r3.2 else some (false, r3.2)
    else some (false, r1.2)
  | .many name dims xs rest, s =>
    (toRecs text (indexNames name dims) xs s).bind fun r =>
    if r.1 then toMems text rest r.2 else some (false, r.2)

/-- `TypeConversion.cpp:828-854` `RecurseStructureToStructuredData`: the elements, with their names. -/
def toRecs (text : Name → V) : List Name → Recs V → St V → Option (Bool × St V)
  | _, .nil, s => some (true, s)
  | [], .cons _ _, s => some (true, s)
  | name :: names, .cons x xs, s =>
    (call s (.createRelative name)).bind fun r1 =>
    if r1.1 then
      (toRec text x r1.2).bind fun r2 =>
      (call r2.2 (.moveToAncestor 1)).bind fun r3 =>
      if r2.1 && r3.1 then toRecs text names xs r3.2 else some (false, r3.2)
    else some (false, r1.2)
end

/-- `GetType(name)`: the value of a leaf; `NULL` names are not found. -/
def valueAt (s : St V) : Option Name → Option (Option V)
  | none => some none
  | some n => (step s (.read n)).map fun r => match r.1 with
    | .value v => v
    | _ => none

/-- `GetChildName(i)`. -/
def childNameAt (s : St V) (i : Nat) : Option (Option Name) :=
  (step s (.getChildName i)).map fun r => match r.1 with
    | .name n => n
    | _ => none

/-- `TypeConversion.cpp:674-705`: how the members are looked for: by the names of the members of the class of the configuration, or by
their position, from an index. -/
inductive Mode where
  | byName (names : List Name)
  | byPosition (start : Nat)

/-- `TypeConversion.cpp:677-705`: `c` is the value of `Class`, if it could be read. -/
def modeOf (reg : Name → Option (List Name)) (c : Option Name) : Mode :=
  match c with
  | none => .byPosition 0
  | some n => match reg n with
    | none => .byPosition 1
    | some names => .byName names

/-- `TypeConversion.cpp:729-738`: the name of the child for the member `i`, with `cdbIdx = k`.  `Introspection.cpp:59-61`: the array of the
members ends with a null pointer, after which the access is outside. -/
def childFor (mode : Mode) (s : St V) (i k : Nat) : Option (Option Name) :=
  match mode with
  | .byName names => if i < names.length then some names[i]? else if i = names.length then some (some []) else none
  | .byPosition start => childNameAt s (k + start)

/-- `MoveRelative(name)`; a `NULL` name is the empty path. -/
def moveRel (s : St V) (name : Option Name) : Option (Bool × St V) := call s (.moveRelative (name.getD []))

mutual
/-- `TypeConversion.cpp:668-812` `StructuredDataToObject` into the object `dest`; `reg` are the names of the members of the registered
classes, `asText` the reading of a value as a text.  The result is the new value of the object, or `none` (false): then the members
before the wrong one have been written, and the current node may be another one; neither is modelled (`Read` goes back). -/
def fromRec (reg : Name → Option (List Name)) (asText : V → Option Name) (conv : V → V → Option V) :
    Rec V → St V → Option (Option (Rec V) × St V)
  | .mk cls ms, s =>
    (valueAt s (some "Class".toList)).bind fun c =>
    (fromMems reg asText conv (modeOf reg (c.bind asText)) 0 0 ms s).bind fun r =>
    some (r.1.map (.mk cls), r.2)

/-- `TypeConversion.cpp:708-797`: the loop over the members, with `i` and `cdbIdx = k`. -/
def fromMems (reg : Name → Option (List Name)) (asText : V → Option Name) (conv : V → V → Option V) (mode : Mode) :
    Nat → Nat → Mems V → St V → Option (Option (Mems V) × St V)
  | _, _, .nil, s => some (some .nil, s)
  | i, k, .basic name old rest, s =>
    (childFor mode s i k).bind fun child =>
    (valueAt s child).bind fun v =>
    match v.bind (conv old) with
    | some w => (fromMems reg asText conv mode (i + 1) (k + 1) rest s).bind fun r => some (r.1.map (.basic name w), r.2)
    -- a node is not converted to a basic type (lines 745-778, 984)
    | none => some (none, s)
  | i, k, .one name old rest, s =>
    (childFor mode s i k).bind fun child =>
    (valueAt s child).bind fun v =>
    if v.isSome then some (none, s)
    else
      (moveRel s child).bind fun r1 =>
      if r1.1 then
        (fromRec reg asText conv old r1.2).bind fun r2 =>
        match r2.1 with
        | none => some (none, r2.2)
        | some x =>
          (call r2.2 (.moveToAncestor 1)).bind fun r3 =>
          if r3.1 then (fromMems reg asText conv mode (i + 1) (k + 1) rest r3.2).bind fun r => some (r.1.map (.one name x), r.2)
          else some (none, r3.2)
      else some (none, r1.2)
  | i, k, .many name dims old rest, s =>
    (childFor mode s i k).bind fun child =>
    (valueAt s child).bind fun v =>
    if v.isSome then some (none, s)
    else
      (fromRecs reg asText conv (indexNames name dims) old s).bind fun r1 =>
      match r1.1 with
      | none => some (none, r1.2)
      | some xs =>
        (fromMems reg asText conv mode (i + 1) (k + (indexNames name dims).length) rest r1.2).bind fun r =>
        some (r.1.map (.many name dims xs), r.2)

/-- `TypeConversion.cpp:631-662` `RecurseStructureToObject`. -/
def fromRecs (reg : Name → Option (List Name)) (asText : V → Option Name) (conv : V → V → Option V) :
    List Name → Recs V → St V → Option (Option (Recs V) × St V)
  | _, .nil, s => some (some .nil, s)
  | [], .cons x xs, s => some (some (.cons x xs), s)
  | name :: names, .cons old olds, s =>
    (call s (.moveRelative name)).bind fun r1 =>
    if r1.1 then
      (fromRec reg asText conv old r1.2).bind fun r2 =>
      match r2.1 with
      | none => some (none, r2.2)
      | some x =>
        (call r2.2 (.moveToAncestor 1)).bind fun r3 =>
        if r3.1 then (fromRecs reg asText conv names olds r3.2).bind fun r => some (r.1.map (.cons x), r.2)
        else some (none, r3.2)
    else some (none, r1.2)
end

/-- `ConfigurationDatabase.cpp:94-106` `Write(name, structure)`. -/
def writeRec (text : Name → V) (s : St V) (name : Name) (x : Rec V) : Option (Bool × St V) :=
  (call s (.createRelative name)).bind fun r1 =>
  if r1.1 then (toRec text x r1.2).bind fun r2 => some (r2.1, { r2.2 with cur := s.cur })
  else some (false, { r1.2 with cur := s.cur })

/-- `ConfigurationDatabase.cpp:191-203` `Read(name, structure)`. -/
def readRec (reg : Name → Option (List Name)) (asText : V → Option Name) (conv : V → V → Option V) (s : St V) (name : Name)
    (dest : Rec V) : Option (Option (Rec V) × St V) :=
  (call s (.moveRelative name)).bind fun r1 =>
  if r1.1 then (fromRec reg asText conv dest r1.2).bind fun r2 => some (r2.1, { r2.2 with cur := s.cur })
  else some (none, { r1.2 with cur := s.cur })

end Verif.ConfigDb
