/-!
# Model of the database of classes

`Source/Core/BareMetal/L2Objects/ClassRegistryDatabase.cpp` and `ClassRegistryItem.cpp`.  The lock is taken to succeed: the operations are atomic.  A
library is what `dlopen` does with the name of a file: it fails, or runs the initialisers of the library (`CLASS_REGISTER`), that add its classes; a file that
is open already adds nothing.  Libraries are never closed: the destructor of `LoadableLibrary` (`LoadableLibrary.h:148-150`) only forgets the handle.
-/
namespace Verif.ClassReg

abbrev Text := List Char

/-- What a class declares: its name and the name of its `typeid` (`ClassProperties`). -/
structure Class where
  name : Text
  typeId : Text
deriving DecidableEq

/-- `ClassRegistryItem`: the class, its identifier and the library that `Find` opened for it. -/
structure Item where
  cls : Class
  uid : Nat
  loader : Option Text
deriving DecidableEq

/-- The database: `classDatabase`, `classUniqueIdentifier`; and the files that the process has opened. -/
structure St where
  items : List Item
  next : Nat
  opened : List Text
deriving DecidableEq

/-- The files that are libraries, and the classes that each one registers, in order. -/
abbrev Env := Text → Option (List Class)

/-- `ClassRegistryDatabase.cpp:63-65`. -/
def empty : St := ⟨[], 0, []⟩

/-- `classUniqueIdentifier + 1u` assigned to a `ClassUID` (`FractionalInteger.h:731`: 14 bits, that saturate). -/
def succ14 (n : Nat) : Nat := if n + 1 > 16383 then 16383 else n + 1

/-- `LinkedListHolder.cpp:105-117`: `ListInsert` at an index, or at the end of a shorter list. -/
def insertAt : List α → Nat → α → List α
  | [], _, x => [x]
  | y :: l, 0, x => x :: y :: l
  | y :: l, n + 1, x => y :: insertAt l n x

/-- `ClassRegistryDatabase.cpp:71-85` `Add`. -/
def add (c : Class) (s : St) : St := { s with items := insertAt s.items s.next ⟨c, s.next, none⟩, next := succ14 s.next }

/-- The classes of a library, as its initialisers run. -/
def addAll : List Class → St → St
  | [], s => s
  | c :: cs, s => addAll cs (add c s)

/-- `LoadableLibrary::Open` (Linux, `LoadableLibrary.cpp:55-79`). -/
def openLibrary (env : Env) (file : Text) (s : St) : Option St :=
  match env file with
  | none => none
  | some cs => if s.opened.contains file then some s else some (addAll cs { s with opened := file :: s.opened })

/-- `StringHelper::SearchString(className, "::")` and `SearchIndex`: what is before and after the first `::`. -/
def split : Text → Option (Text × Text)
  | ':' :: ':' :: rest => some ([], rest)
  | c :: rest => (split rest).map fun r => (c :: r.1, r.2)
  | [] => none

/-- `ClassRegistryDatabase.cpp:94-111`: the name of the class. -/
def classPart (name : Text) : Text :=
  match split name with
  | some r => r.2
  | none => name

/-- `ClassRegistryDatabase.cpp:94-108`: the name of the library, of 128 characters at most. -/
def libraryPart (name : Text) : Text :=
  match split name with
  | some r => r.1.take 128
  | none => name.take 128

/-- `ClassRegistryDatabase.cpp:152-163`: the extensions in the order of `operatingSystemDLLExtensions` (Linux, `GeneralDefinitions.h:79`), until one opens. -/
def openFirst (env : Env) (lib : Text) : List Text → St → Option (Text × St)
  | [], _ => none
  | e :: es, s =>
    match openLibrary env (lib ++ e) s with
    | some s' => some (lib ++ e, s')
    | none => openFirst env lib es s

/-- `ClassRegistryDatabase.cpp:120-131`: the loop over the database. -/
def search (name : Text) : List Item → Option Item
  | [] => none
  | i :: l => if i.cls.name = name then some i else search name l

/-- `registryItem->SetLoadableLibrary(loader)` (lines 176-179) on the item that is found. -/
def mark (name file : Text) : List Item → List Item
  | [] => []
  | i :: l => if i.cls.name = name then { i with loader := some file } :: l else i :: mark name file l

/-- The extensions of a library. -/
def extensions : List Text := [['.', 's', 'o'], ['.', 'g', 'a', 'm'], ['.', 'd', 'r', 'v']]

/-- `ClassRegistryDatabase.cpp:87-196` `Find`. -/
def find (env : Env) (name : Text) (s : St) : Option Item × St :=
  match search (classPart name) s.items with
  | some i => (some i, s)
  | none =>
    match openFirst env (libraryPart name) extensions s with
    | none => (none, s)
    | some (file, s') =>
      match search (classPart name) s'.items with
      | some i => (some { i with loader := some file }, { s' with items := mark (classPart name) file s'.items })
      | none => (none, s')

/-- `ClassRegistryDatabase.cpp:198-226` `FindTypeIdName`. -/
def findTypeId (typeId : Text) : List Item → Option Item
  | [] => none
  | i :: l => if i.cls.typeId = typeId then some i else findTypeId typeId l

/-- `ClassRegistryDatabase.cpp:240-250` `Peek`. -/
def peek (idx : Nat) (s : St) : Option Item := s.items[idx]?

/-- `ClassRegistryDatabase.cpp:228-238` `GetSize`. -/
def size (s : St) : Nat := s.items.length

/-- What changes the database: a class of the program is registered, or a class is looked for. -/
inductive Op
  | add (c : Class)
  | find (name : Text)

/-- One call. -/
def step (env : Env) (s : St) : Op → St
  | .add c => add c s
  | .find name => (find env name s).2

/-- A history of calls. -/
def run (env : Env) (ops : List Op) (s : St) : St := ops.foldl (step env) s

end Verif.ClassReg
