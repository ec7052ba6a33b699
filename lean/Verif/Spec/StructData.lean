import Verif.Spec.ConfigDb
import Verif.Model.StructData
/-! # Specification: a structure in a configuration -/
namespace Verif.Spec.ConfigDb
open Verif.ConfigDb (Name Rec Mems Recs)

variable {V : Type}

/-- All tuples of indexes, the last index first to change. -/
def tuples : List Nat → List (List Nat)
  | [] => [[]]
  | d :: ds => (List.range d).flatMap fun i => (tuples ds).map (i :: ·)

/-- `name[i][j]`. -/
def element (name : Name) (t : List Nat) : Name := name ++ t.flatMap fun i => ['['] ++ Nat.toDigits 10 i ++ [']']

/-- The names of the children for the members: one for each member, and one for each element of a vector of structures. -/
def childNames : Mems V → List Name
  | .nil => []
  | .basic n _ rest => n :: childNames rest
  | .one n _ rest => n :: childNames rest
  | .many n dims _ rest => (tuples dims).map (element n) ++ childNames rest

/-- The names of the members. -/
def memberNames : Mems V → List Name
  | .nil => []
  | .basic n _ rest => n :: memberNames rest
  | .one n _ rest => n :: memberNames rest
  | .many n _ _ rest => n :: memberNames rest

mutual
/-- The tree has the structure at `p`: its members in order, after the name of the class if `named`. -/
def Shows (text : Name → V) (named : Bool) (item : List Name → Option (Item V)) (p : List Name) : Rec V → Prop
  | .mk cls ms =>
    item p = some (.node ((if named then ["Class".toList] else []) ++ childNames ms)) ∧
    (named = true → item (p ++ ["Class".toList]) = some (.leaf (text cls))) ∧ ShowsMembers text named item p ms

def ShowsMembers (text : Name → V) (named : Bool) (item : List Name → Option (Item V)) (p : List Name) : Mems V → Prop
  | .nil => True
  | .basic n v rest => item (p ++ [n]) = some (.leaf v) ∧ ShowsMembers text named item p rest
  | .one n x rest => Shows text named item (p ++ [n]) x ∧ ShowsMembers text named item p rest
  | .many n dims xs rest => ShowsElements text named item p ((tuples dims).map (element n)) xs ∧ ShowsMembers text named item p rest

def ShowsElements (text : Name → V) (named : Bool) (item : List Name → Option (Item V)) (p : List Name) : List Name → Recs V → Prop
  | [], .nil => True
  | n :: ns, .cons x xs => Shows text named item (p ++ [n]) x ∧ ShowsElements text named item p ns xs
  | _, _ => False
end

/-- A name that can be a member. -/
def NameOk (n : Name) : Prop := n ≠ [] ∧ '.' ∉ n ∧ '\x00' ∉ n ∧ n.length < 2 ^ 32

mutual
/-- A structure that can be written: the names of its children are different, none is `Class`, vectors of structures have as
many elements as they declare, and more than none (a vector of one structure is just the structure). -/
def Proper : Rec V → Prop
  | .mk _ ms => (childNames ms).Nodup ∧ "Class".toList ∉ childNames ms ∧ (∀ n ∈ childNames ms, NameOk n) ∧
      ProperMembers (childNames ms) ms

def ProperMembers (all : List Name) : Mems V → Prop
  | .nil => True
  | .basic _ _ rest => ProperMembers all rest
  | .one _ x rest => Proper x ∧ ProperMembers all rest
  | .many n dims xs rest => n ∉ all ∧ n ≠ "Class".toList ∧ dims ≠ [] ∧ dims ≠ [1] ∧ tuples dims ≠ [] ∧
      ProperElements (tuples dims) xs ∧ ProperMembers all rest

def ProperElements : List (List Nat) → Recs V → Prop
  | [], .nil => True
  | _ :: ts, .cons x xs => Proper x ∧ ProperElements ts xs
  | _, _ => False
end

mutual
/-- An object of the same type as `x`: the values of `x` can be converted to its members as they are. -/
def Fits (conv : V → V → Option V) : Rec V → Rec V → Prop
  | .mk c ms, .mk c' ms' => c = c' ∧ FitsMembers conv ms ms'

def FitsMembers (conv : V → V → Option V) : Mems V → Mems V → Prop
  | .nil, .nil => True
  | .basic n old rest, .basic n' v rest' => n = n' ∧ conv old v = some v ∧ FitsMembers conv rest rest'
  | .one n old rest, .one n' x rest' => n = n' ∧ Fits conv old x ∧ FitsMembers conv rest rest'
  | .many n dims old rest, .many n' dims' xs rest' => n = n' ∧ dims = dims' ∧ FitsElements conv old xs ∧ FitsMembers conv rest rest'
  | _, _ => False

def FitsElements (conv : V → V → Option V) : Recs V → Recs V → Prop
  | .nil, .nil => True
  | .cons old olds, .cons x xs => Fits conv old x ∧ FitsElements conv olds xs
  | _, _ => False
end

mutual
/-- The classes of the structure are registered with its members, or not registered. -/
def Known (reg : Name → Option (List Name)) : Rec V → Prop
  | .mk c ms => (reg c = some (memberNames ms) ∨ reg c = none) ∧ KnownMembers reg ms

def KnownMembers (reg : Name → Option (List Name)) : Mems V → Prop
  | .nil => True
  | .basic _ _ rest => KnownMembers reg rest
  | .one _ x rest => Known reg x ∧ KnownMembers reg rest
  | .many _ _ xs rest => KnownElements reg xs ∧ KnownMembers reg rest

def KnownElements (reg : Name → Option (List Name)) : Recs V → Prop
  | .nil => True
  | .cons x xs => Known reg x ∧ KnownElements reg xs
end

/-- A structure of values only. -/
def flat : List (Name × V) → Mems V
  | [] => .nil
  | m :: ms => .basic m.1 m.2 (flat ms)

/-- The value at a place, if there is one. -/
def leafAt (item : List Name → Option (Item V)) (p : List Name) : Option V :=
  match item p with
  | some (.leaf v) => some v
  | _ => none

/-- The members with what is found for them, `found i` for the member `i`: nothing as soon as one is missing or cannot be converted. -/
def taken (conv : V → V → Option V) (found : Nat → Option V) : Nat → List (Name × V) → Option (List (Name × V))
  | _, [] => some []
  | i, m :: ms => (found i).bind fun v => (conv m.2 v).bind fun w => (taken conv found (i + 1) ms).map fun r => (m.1, w) :: r

end Verif.Spec.ConfigDb
