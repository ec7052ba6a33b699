import Verif.Model.ClassReg
/-!
# Specification of the database of classes (C83)

Only the types of the classes and of the items are taken from the model.
-/
namespace Verif.Spec.ClassReg
open Verif.ClassReg (Text Class Item Env)

/-- `q` is what follows the first `::` of the name, and `p` what precedes it. -/
def Qualified (name p q : Text) : Prop :=
  name = p ++ ':' :: ':' :: q ∧ ∀ p' q', name = p' ++ ':' :: ':' :: q' → p.length ≤ p'.length

/-- A name of a class in a library: `library::Class`, or `Class`, whose library has the name of the class. -/
def Names (name library cls : Text) : Prop :=
  Qualified name library cls ∨ ((∀ p q, name ≠ p ++ ':' :: ':' :: q) ∧ library = name ∧ cls = name)

/-- The item is the first one of the name. -/
def FirstNamed (cls : Text) (l : List Item) (i : Item) : Prop :=
  ∃ n : Nat, l[n]? = some i ∧ i.cls.name = cls ∧ ∀ (m : Nat) j, m < n → l[m]? = some j → j.cls.name ≠ cls

/-- No item has the name. -/
def NoneNamed (cls : Text) (l : List Item) : Prop := ∀ i, i ∈ l → i.cls.name ≠ cls

/-- The file of a library: the first one that there is of `.so`, `.gam` and `.drv`. -/
def LibraryFile (env : Env) (library file : Text) (classes : List Class) : Prop :=
  env file = some classes ∧
  (file = library ++ ".so".toList ∨
   (file = library ++ ".gam".toList ∧ env (library ++ ".so".toList) = none) ∨
   (file = library ++ ".drv".toList ∧ env (library ++ ".so".toList) = none ∧ env (library ++ ".gam".toList) = none))

/-- No such file. -/
def NoLibrary (env : Env) (library : Text) : Prop :=
  env (library ++ ".so".toList) = none ∧ env (library ++ ".gam".toList) = none ∧ env (library ++ ".drv".toList) = none

end Verif.Spec.ClassReg
