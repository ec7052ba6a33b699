import Verif.Model.IntText
/-!
# Model of `ValidateBasicType`

`Source/Core/BareMetal/L4Configuration/ValidateBasicType.cpp`.  The attributes are those that the parser (C51) reads from the text, without type
casts: texts, or lists of texts.
-/
namespace Verif.Validate
open Verif.IntText (IType stringToInteger printDecimal)

/-- A text, without the zero at its end. -/
abbrev Text := List UInt8

/-- The value of an attribute: `a = text` or `a = {text text ...}`. -/
inductive Attr
  | one (t : Text)
  | list (l : List Text)
deriving DecidableEq

/-- The attributes that are looked for; `none` when absent. -/
structure Attrs where
  max : Option Attr
  min : Option Attr
  minSize : Option Attr
  maxSize : Option Attr
  values : Option Attr
deriving DecidableEq

/-- What `PrivateValidate` needs of a type: the conversion of a text, the comparison `<`, the equality and the size as text. -/
structure Kind (α : Type) where
  read : Text → Option α
  lt : α → α → Bool
  same : α → α → Bool
  size : α → Nat

/-- `cdb.Read(name, x)` for a scalar: `TypeConversion.cpp:1433-1462` refuses a list. -/
def readOne (read : Text → Option α) : Option Attr → Option α
  | some (.one t) => read t
  | _ => none

/-- `cdb.Read("values", elements)`: `TypeConversion.cpp:1433-1462` refuses a scalar; `1069-1148` converts every element. -/
def readList (read : Text → Option α) : Option Attr → Option (List α)
  | some (.list l) => l.mapM read
  | _ => none

/-- `TypeConversion.cpp:497-502`: text to integer. -/
def readInt (t : IType) (s : Text) : Option Int := if (stringToInteger t s).1 then some (stringToInteger t s).2 else none

/-- `cdb.Read("min_size", size)`: a `uint32`. -/
def readSize (a : Option Attr) : Option Int := readOne (readInt ⟨32, false⟩) a

/-- `ValidateBasicType.cpp:60-115`, `122-184` and the copies for the other types: `PrivateValidate`. -/
def validateOne (k : Kind α) (a : Attrs) (v : α) : Bool :=
  (match readOne k.read a.max with
    | some m => !k.lt m v
    | none => true) &&
  (match readOne k.read a.min with
    | some m => !k.lt v m
    | none => true) &&
  (match readSize a.minSize with
    | some n => !decide ((k.size v : Int) < n)
    | none => true) &&
  (match readSize a.maxSize with
    | some n => !decide ((k.size v : Int) > n)
    | none => true) &&
  (match readList k.read a.values with
    | some l => l.any (k.same v)
    | none => true)

/-- `ValidateBasicType.cpp:122-667`: the integers.  The text of the number is the one of `TypeConvert` to `char8[64]`, that is long enough. -/
def intKind (t : IType) : Kind Int :=
  ⟨readInt t, fun x y => decide (x < y), fun x y => decide (x = y), fun x => (printDecimal t x 0 false false false).length⟩

/-- `strcmp(a, b) < 0` (`StringHelper_CLIB_Generic.cpp:95-116`), the characters as `unsigned char`. -/
def textLt : Text → Text → Bool
  | [], [] => false
  | [], _ :: _ => true
  | _ :: _, [] => false
  | a :: s, b :: t => if a = b then textLt s t else decide (a.toNat < b.toNat)

/-- `ValidateBasicType.cpp:60-115`: the texts.  `TypeConversion.cpp:479-493` cuts a text that is read to 63 characters. -/
def textKind : Kind Text := ⟨fun t => some (t.take 63), textLt, fun x y => decide (x = y), List.length⟩

/-- `static_cast<int8>(c)`. -/
def signed (c : UInt8) : Int := if c.toNat < 128 then c.toNat else (c.toNat : Int) - 256

/-- `ValidateBasicType.cpp:810-864`: one character.  A text that is read is its first character (`TypeConversion.cpp:479-493` with an array of one); the
`values` are the characters of one text. -/
def validateChar (a : Attrs) (v : UInt8) : Bool :=
  (match readOne (fun t => some (t.headD 0)) a.max with
    | some m => !decide (signed v > signed m)
    | none => true) &&
  (match readOne (fun t => some (t.headD 0)) a.min with
    | some m => !decide (signed v < signed m)
    | none => true) &&
  (match readSize a.minSize with
    | some n => !decide (n > 1)
    | none => true) &&
  (match readSize a.maxSize with
    | some n => !decide (n = 0)
    | none => true) &&
  (match readOne (fun t => some (t.take 63)) a.values with
    | some l => l.any fun c => decide (v = c)
    | none => true)

/-- A value: one, a vector, or a matrix of so many rows and columns, as one block or as an array of pointers to rows (`ptr`: what is read there as an
element). -/
inductive Value (α : Type)
  | scalar (v : α)
  | vector (l : List α)
  | block (rows cols : Nat) (l : List α)
  | heap (rows cols : Nat) (l : List (List α)) (ptr : α)

/-- What an access gives: nothing (`voidAnyType`), an element, or a read outside the memory. -/
inductive Got (α : Type)
  | void
  | elem (v : α)
  | outside

/-- A read of memory. -/
def got (l : List α) (i : Nat) : Got α :=
  match l[i]? with
  | some v => .elem v
  | none => .outside

/-- `ValidateBasicType.cpp:890-902` `at`, with `AnyType.cpp:77-133`: a row of a matrix has as many elements as the matrix has rows (`:101`, `:107`). -/
def Value.at (i j : Nat) : Value α → Got α
  | .scalar v => .elem v
  | .vector l => if j < l.length then got l j else .void
  | .block rows cols l => if i < rows then (if j < rows then got l (i * cols + j) else .void) else .void
  | .heap rows _ l _ => if i < rows then (if j < rows then got (l.getD i []) j else .void) else .void

/-- `ValidateBasicType.cpp:881-885`: `nRows` and `nCols`; `numberOfElements[0]` are the columns of a matrix, `[1]` the rows. -/
def Value.loops : Value α → Nat × Nat
  | .scalar _ => (1, 1)
  | .vector l => (l.length, l.length)
  | .block rows cols _ => (cols, rows)
  | .heap rows cols _ _ => (cols, rows)

/-- `*static_cast<T*>(value.GetDataPointer())`. -/
def Value.first : Value α → Got α
  | .scalar v => .elem v
  | .vector l => got l 0
  | .block _ _ l => got l 0
  | .heap _ _ _ ptr => .elem ptr

/-- A loop that ends at the first refusal; `none` is a read outside the memory. -/
def every (f : Nat → Option Bool) : List Nat → Option Bool
  | [] => some true
  | i :: l =>
    match f i with
    | some true => every f l
    | r => r

/-- The value of an access, checked. -/
def checked (check : α → Bool) : Got α → Option Bool
  | .void => some true
  | .elem v => some (check v)
  | .outside => none

/-- `ValidateBasicType.cpp:887-960`: the loops.  `isUInt32`: line 935 takes the first element of the value whatever the position. -/
def validateLoops (isUInt32 : Bool) (check : α → Bool) (value : Value α) : Option Bool :=
  every (fun i => every (fun j =>
    match value.at i j with
    | .void => some true
    | g => checked check (if isUInt32 then value.first else g)) (List.range value.loops.2)) (List.range value.loops.1)

/-- `ValidateBasicType.cpp:866-966` for an integer type; `none` are attributes that the parser refuses. -/
def validateInt (t : IType) (attrs : Option Attrs) (value : Value Int) : Option Bool :=
  match attrs with
  | none => some true
  | some a => validateLoops (decide (t.w = 32) && !t.signed) (validateOne (intKind t) a) value

/-- `ValidateBasicType.cpp:866-966` for texts (vectors; a matrix of texts is not modelled). -/
def validateText (attrs : Option Attrs) (value : Value Text) : Option Bool :=
  match attrs with
  | none => some true
  | some a => validateLoops false (validateOne textKind a) value

/-- `ValidateBasicType.cpp:866-966` for characters. -/
def validateChars (attrs : Option Attrs) (value : Value UInt8) : Option Bool :=
  match attrs with
  | none => some true
  | some a => validateLoops false (validateChar a) value

end Verif.Validate
