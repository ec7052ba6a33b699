import Verif.Model.LinkedList
/-!
# Specification of the linked list: an ideal sequence

The ideal state is the sequence of the list and the other chains of elements owned by the caller.  `Ideal` says what
each call may return and do to it; the sorting calls only promise an ordered rearrangement.
-/
namespace Verif.Spec.LinkedList
open Verif.LinkedList (Addr Op Out root)

structure World where
  /-- the elements of the list, in order -/
  main : List Addr
  /-- chains of elements outside of the list -/
  ext : List (List Addr)

/-- `cmp a b > 0` is a total preorder's "a after b". -/
structure TotalPreorder (cmp : Addr → Addr → Int) : Prop where
  total : ∀ a b, cmp a b ≤ 0 ∨ cmp b a ≤ 0
  trans : ∀ a b c, cmp a b ≤ 0 → cmp b c ≤ 0 → cmp a c ≤ 0

/-- No element is placed after a greater one. -/
def Sorted (cmp : Addr → Addr → Int) (l : List Addr) : Prop := l.Pairwise (fun a b => cmp a b ≤ 0)

/-- The calls allowed in a state: a new element has a fresh address; an inserted element is the first of a chain that
is not in the list; comparisons used for sorting are total preorders. -/
def Legal (tmp : Addr) (w : World) : Op → Prop
  | .new p => p ≠ root ∧ p ≠ tmp ∧ p ∉ w.main ∧ p ∉ w.ext.flatten
  | .insert p | .insertAt p _ | .add p | .addL p => ∃ c ∈ w.ext, c.head? = some p
  | .insertSorted p cmp => (∃ c ∈ w.ext, c.head? = some p) ∧ TotalPreorder cmp
  | .sort cmp => TotalPreorder cmp
  | _ => True

/-- The chain starting at `p` is `p :: ys` and `rest` are the other chains. -/
def Takes (ext : List (List Addr)) (p : Addr) (ys : List Addr) (rest : List (List Addr)) : Prop :=
  ∃ e1 e2, ext = e1 ++ (p :: ys) :: e2 ∧ rest = e1 ++ e2

/-- Effect of each call. -/
def Ideal (w : World) (op : Op) (out : Out) (w' : World) : Prop :=
  match op with
  | .new p => out = .unit ∧ w'.main = w.main ∧ w'.ext = [p] :: w.ext
  | .insert p => ∃ ys rest, Takes w.ext p ys rest ∧ out = .unit ∧ w'.main = p :: ys ++ w.main ∧ w'.ext = rest
  | .insertAt p i => ∃ ys rest, Takes w.ext p ys rest ∧ out = .unit ∧
      w'.main = w.main.take i ++ (p :: ys) ++ w.main.drop i ∧ w'.ext = rest
  | .add p => ∃ ys rest, Takes w.ext p ys rest ∧ out = .unit ∧ w'.main = w.main ++ [p] ∧ w'.ext = ys :: rest
  | .addL p => ∃ ys rest, Takes w.ext p ys rest ∧ out = .unit ∧ w'.main = w.main ++ p :: ys ∧ w'.ext = rest
  | .insertSorted p cmp => ∃ ys rest, Takes w.ext p ys rest ∧ out = .unit ∧ w'.main.Perm (p :: ys ++ w.main) ∧
      w.main.Sublist w'.main ∧ (Sorted cmp w.main → Sorted cmp w'.main) ∧ w'.ext = rest
  | .extract p => if p ∈ w.main then out = .flag true ∧ w'.main = w.main.erase p ∧ w'.ext = [p] :: w.ext
      else out = .flag false ∧ w' = w
  | .extractFilter t =>
      match w.main.find? t with
      | some p => out = .elem (some p) ∧ w'.main = w.main.erase p ∧ w'.ext = [p] :: w.ext
      | none => out = .elem none ∧ w' = w
  | .extractAt i =>
      match w.main[i]? with
      | some p => out = .elem (some p) ∧ w'.main = w.main.eraseIdx i ∧ w'.ext = [p] :: w.ext
      | none => out = .elem none ∧ w' = w
  | .delete p => if p ∈ w.main then out = .flag true ∧ w'.main = w.main.erase p ∧ w'.ext = w.ext
      else out = .flag false ∧ w' = w
  | .deleteFilter t => out = .flag (w.main.any t) ∧ w'.main = w.main.filter (fun a => !t a) ∧ w'.ext = w.ext
  | .search p => out = .flag (w.main.contains p) ∧ w' = w
  | .searchFilter t => out = .elem (w.main.find? t) ∧ w' = w
  | .peek i => out = .elem w.main[i]? ∧ w' = w
  | .sort cmp => out = .unit ∧ w'.main.Perm w.main ∧ Sorted cmp w'.main ∧ w'.ext = w.ext

/-- Every call of the history is allowed, whatever the preceding ones did. -/
def AllLegal (tmp : Addr) : World → List Op → Prop
  | _, [] => True
  | w, op :: ops => Legal tmp w op ∧ ∀ out w', Ideal w op out w' → AllLegal tmp w' ops

/-- An ideal history. -/
inductive IdealRun : World → List Op → List Out → World → Prop
  | nil (w) : IdealRun w [] [] w
  | cons {w op o w' ops os w''} (h : Ideal w op o w') (t : IdealRun w' ops os w'') :
      IdealRun w (op :: ops) (o :: os) w''

end Verif.Spec.LinkedList
