import Verif.Model.MethodCall
/-! ## Specification: calling a registered method -/
namespace Verif.Spec.MethodCall
open Verif.MethodCall (Mode Data Method Class)

variable {O P A S : Type}

/-- The parameters of a call: all of the first `n` that can be read, or none. -/
def inputs (d : Data P A) (p : P) (n : Nat) : Option (List A) := (List.range n).mapM fun i => d.read i p

/-- The parameters that the caller gets back: those declared `T &`, with their numbers. -/
def outputs (modes : List Mode) (as : List A) : List (Nat × A) :=
  ((List.range as.length).zip as).filter fun x => decide (modes[x.1]? = some .ref)

/-- Some values are written one after the other, until one cannot be. -/
def writes (d : Data P A) : List (Nat × A) → P → Bool × P
  | [], p => (true, p)
  | (i, a) :: l, p => if (d.write i a p).1 then writes d l (d.write i a p).2 else (false, (d.write i a p).2)

/-- The method `m` is the first that is registered with the name. -/
def Registered (cls : Class O P A S) (name : List Char) (m : Method O P A S) : Prop :=
  ∃ before after, cls = before ++ (name, m) :: after ∧ ∀ x ∈ before, x.1 ≠ name

/-- A method has as many parameters when it ends as when it began. -/
def Sized (modes : List Mode) (f : O → List A → Msg.Err × List A × O) : Prop :=
  ∀ o as, as.length = modes.length → (f o as).2.1.length = modes.length

/-- Two to four parameters, or one that the caller does not get back. -/
def usual (modes : List Mode) : Bool := decide (modes = [.value]) || decide (modes = [.constRef]) || decide (2 ≤ modes.length ∧ modes.length ≤ 4)

end Verif.Spec.MethodCall
