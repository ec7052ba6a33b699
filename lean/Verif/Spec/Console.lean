/-!
# A text in lines of at most so many characters
-/
namespace Verif.Console.Spec

/-- `out` is `text` with a line break added after every line that has `columns` characters, when `k` characters are on the line. -/
inductive Wrapped (columns : Nat) : (k : Nat) → (text out : List Char) → Prop where
  | nil (k) : Wrapped columns k [] []
  | newline {k t o} : Wrapped columns 0 t o → Wrapped columns k ('\n' :: t) ('\n' :: o)
  | char {k c t o} : c ≠ '\n' → k + 1 < columns → Wrapped columns (k + 1) t o → Wrapped columns k (c :: t) (c :: o)
  | full {k c t o} : c ≠ '\n' → k + 1 = columns → Wrapped columns 0 t o → Wrapped columns k (c :: t) (c :: '\n' :: o)

/-- No line is longer than `columns`, when `k` characters are on the first line. -/
def Fits (columns : Nat) : (k : Nat) → List Char → Prop
  | _, [] => True
  | k, c :: t => if c = '\n' then Fits columns 0 t else k + 1 ≤ columns ∧ Fits columns (k + 1) t

/-- `out` is `text` with line breaks added. -/
inductive Added : (text out : List Char) → Prop where
  | nil : Added [] []
  | char {c t o} : Added t o → Added (c :: t) (c :: o)
  | break {t o} : Added t o → Added t ('\n' :: o)

end Verif.Console.Spec
