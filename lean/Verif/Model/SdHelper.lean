/-!
# Model of `BareMetal/L4Configuration/StructuredDataIHelper.cpp`

The configuration behind the helper is a state `S`; each of its calls is a function (C36, C92 say what they do).  `V` are the values of the
configuration, `W` those of the destination; the conversions (C65-C68, C78, C79, C93) are parameters, and a failed one leaves the destination as
it was.  Reports are not modelled.
-/
namespace Verif.SdHelper

abbrev Text := List Char

/-- The helper: `hasErrors`, and the configuration with the destinations. -/
structure St (S : Type) where
  hasErrors : Bool
  inner : S
  deriving DecidableEq, Repr

variable {S V W : Type}

/-- `StructuredDataIHelper.cpp:49-52`: the constructor. -/
def construct (ownerValid : Bool) (s : S) : St S := ⟨!ownerValid, s⟩

/-- `StructuredDataIHelper.cpp:57-59` `ResetErrors`. -/
def resetErrors (h : St S) : St S := { h with hasErrors := false }

/-- `StructuredDataIHelper.cpp:65-70` `Write`, and `72-77` `Copy`, `83-88`, `270-324` the moves, `CreateAbsolute`, `CreateRelative`, `AddToCurrentNode`, `Delete`: the call
`f` of the configuration. -/
def pass (f : S → Bool × S) (h : St S) : Bool × St S :=
  if h.hasErrors then (!h.hasErrors, h)
  else
    let r := f h.inner
    (!(!r.1), ⟨!r.1, r.2⟩)

/-- `StructuredDataIHelper.cpp:94-116` `Read`: `get` reads from the configuration, `dflt` converts the default value, `none` when it is void. -/
def readValue (get : S → Bool × S) (dflt : Option (S → Bool × S)) (h : St S) : Bool × St S :=
  if h.hasErrors then (false, h)
  else
    let r := get h.inner
    if r.1 then (true, ⟨false, r.2⟩)
    else
      match dflt with
      | none => (false, ⟨true, r.2⟩)
      | some f =>
        let q := f r.2
        (!(!q.1), ⟨!q.1, q.2⟩)

/-- `StructuredDataIHelper.cpp:173-178`: the search of the option. -/
def searchOption (o : Text) : (i : Nat) → List Text → Option Nat
  | _, [] => none
  | i, x :: xs => if x = o then some i else searchOption o (i + 1) xs

/-- `StructuredDataIHelper.cpp:139-155`: the option, or the default. -/
def optionText (found dflt : Option Text) : Option Text :=
  match found with
  | some o => some o
  | none => dflt

/-- `StructuredDataIHelper.cpp:122-198` `ReadEnum`: `get` is what is read as a text, `set` the conversion of the text of the value into the destination. -/
def readEnum (get : S → Option Text) (options values : List Text) (dflt : Option Text) (set : Text → S → Option S) (h : St S) : Bool × St S :=
  if h.hasErrors then (false, h)
  else if options.length = 0 then (false, ⟨true, h.inner⟩)
  else if options.length ≠ values.length then (false, ⟨true, h.inner⟩)
  else
    match optionText (get h.inner) dflt with
    | none => (false, ⟨true, h.inner⟩)
    | some o =>
      match searchOption o 0 options with
      | none => (false, ⟨true, h.inner⟩)
      | some i =>
        match values[i]? with
        | none => (false, ⟨true, h.inner⟩)
        | some v =>
          match set v h.inner with
          | none => (false, ⟨true, h.inner⟩)
          | some s => (true, ⟨false, s⟩)

/-- `StructuredDataIHelper.cpp:200-268` `ReadValidated`: `eval` is the result of the expression on what has been read (C77, C80), `none` if it cannot be
parsed, compiled or executed. -/
def readValidated (get : S → Bool × S) (eval : S → Option Nat) (h : St S) : Bool × St S :=
  let r := if h.hasErrors then h else (readValue get none h).2
  if r.hasErrors then (false, r)
  else
    match eval r.inner with
    | none => (false, ⟨true, r.inner⟩)
    | some v => if v ≠ 1 then (false, ⟨true, r.inner⟩) else (true, r)

/-- The calls of a program. -/
inductive Call (S : Type) where
  | pass (f : S → Bool × S)
  | read (get : S → Bool × S) (dflt : Option (S → Bool × S))
  | enum (get : S → Option Text) (options values : List Text) (dflt : Option Text) (set : Text → S → Option S)
  | validated (get : S → Bool × S) (eval : S → Option Nat)

def call : Call S → St S → Bool × St S
  | .pass f, h => pass f h
  | .read g d, h => readValue g d h
  | .enum g o v d s, h => readEnum g o v d s h
  | .validated g e, h => readValidated g e h

def run : List (Call S) → St S → List Bool × St S
  | [], h => ([], h)
  | c :: cs, h =>
    let r := call c h
    let q := run cs r.2
    (r.1 :: q.1, q.2)

/-- `ConfigurationDatabase::Read` of a value (C36): what is at the name, converted into the destination. -/
def getValue (db : Text → Option V) (conv : V → Option W) (name : Text) (dest : W) : Bool × W :=
  match (db name).bind conv with
  | some w => (true, w)
  | none => (false, dest)

end Verif.SdHelper
