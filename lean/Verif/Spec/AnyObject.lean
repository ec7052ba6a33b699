import Verif.Model.AnyObject
/-!
# What it means that memory holds a value

Only the data types of the model (`Mem`, `Word`, `Any`, `Kind`) are used.
-/
namespace Verif.AnyObject.Spec

/-- The memory of a program: there is nothing at NULL, and blocks not yet given by `malloc` do not exist. -/
def Sound (m : Mem) : Prop := 0 < m.next ∧ m.cells 0 = none ∧ ∀ p, m.next ≤ p → m.cells p = none

/-- At address `p` there is the text `s`, ended by a zero. -/
def Text (m : Mem) (p : Nat) (s : List Word) : Prop :=
  Word.byte 0 ∉ s ∧ ∃ rest, m.cells p = some (s ++ .byte 0 :: rest)

/-- At address `p` there is a table of addresses of texts. -/
def Texts (m : Mem) (p : Nat) (ts : List (List Word)) : Prop :=
  ∃ ws, m.cells p = some ws ∧ ∀ (i : Nat) s, ts[i]? = some s → ∃ q, ws[i]? = some (Word.ptr q) ∧ Text m q s

/-- At address `p` there are these cells. -/
def Begins (m : Mem) (p : Nat) (b : List Word) : Prop := ∃ rest, m.cells p = some (b ++ rest)

/-- The contents of a value: rows of cells, rows of texts, or an address. -/
inductive Content where
  | raw (rows : List (List Word))
  | text (rows : List (List (List Word)))
  | address (p : Nat)

/-- The cells of one element that is not a text. -/
def Width (k : Kind) (w : Nat) : Prop := k = .num w ∨ (k = .pointer ∧ w = 1)

/-- The value described by `t` has these contents. -/
inductive Holds (m : Mem) (t : Any) : Content → Prop
  | address : t.kind = .pointer → t.dims = 0 → Holds m t (.address t.data)
  | number (b) : t.kind = .num b.length → t.dims = 0 → Begins m t.data b → Holds m t (.raw [b])
  | vector (w b) : Width t.kind w → t.dims = 1 → b.length = w * t.cols → Begins m t.data b → Holds m t (.raw [b])
  | staticMatrix (w bs) : Width t.kind w → t.dims = 2 → t.isStatic = true → bs.length = t.rows →
      (∀ b ∈ bs, b.length = w * t.cols) → Begins m t.data bs.flatten → Holds m t (.raw bs)
  | heapMatrix (w bs ws) : Width t.kind w → t.dims = 2 → t.isStatic = false → bs.length = t.rows →
      (∀ b ∈ bs, b.length = w * t.cols) → m.cells t.data = some ws →
      (∀ (i : Nat) b, bs[i]? = some b → ∃ q, ws[i]? = some (Word.ptr q) ∧ Begins m q b) → Holds m t (.raw bs)
  | tensor (w bs) : Width t.kind w → t.dims = 3 → t.isStatic = true → bs.length = t.rows * t.pages →
      (∀ b ∈ bs, b.length = w * t.cols) → Begins m t.data bs.flatten → Holds m t (.raw bs)
  | cString (s) : t.kind = .cstr → t.dims = 0 → Text m t.data s → Holds m t (.text [[s]])
  | streamString (s) : t.kind = .sstr → t.dims = 0 → Texts m t.data [s] → Holds m t (.text [[s]])
  | textVector (ts) : t.kind = .cstr ∨ t.kind = .sstr → t.dims = 1 → ts.length = t.cols → Texts m t.data ts → Holds m t (.text [ts])
  | textStaticMatrix (tss) : t.kind = .cstr ∨ t.kind = .sstr → t.dims = 2 → t.isStatic = true → tss.length = t.rows →
      (∀ ts ∈ tss, ts.length = t.cols) → Texts m t.data tss.flatten → Holds m t (.text tss)
  | textHeapMatrix (tss ws) : t.kind = .cstr ∨ t.kind = .sstr → t.dims = 2 → t.isStatic = false → tss.length = t.rows →
      (∀ ts ∈ tss, ts.length = t.cols) → m.cells t.data = some ws →
      (∀ (i : Nat) ts, tss[i]? = some ts → ∃ q, ws[i]? = some (Word.ptr q) ∧ Texts m q ts) → Holds m t (.text tss)

/-- How many elements the value has. -/
def count (t : Any) : Nat :=
  match t.dims with
  | 0 => 1
  | 1 => t.cols
  | 2 => t.rows * t.cols
  | _ => t.rows * t.cols * t.pages

/-- Elements of this kind take less than 4 GB; an address takes eight bytes. -/
def Small (k : Kind) (n : Nat) : Prop :=
  match k with
  | .num b => 0 < b ∧ b * n < 4294967296
  | _ => 8 * n < 4294967296

/-- The value is not empty and it takes less than 4 GB, and so does the table of the rows. -/
def Fits (t : Any) : Prop :=
  0 < count t ∧ (t.dims = 2 → t.isStatic = false → Small .pointer t.rows) ∧ Small t.kind (count t)

/-- The same shape; a `StreamString` is kept as a C string. -/
def SameShape (a t : Any) : Prop :=
  a.dims = t.dims ∧ a.cols = t.cols ∧ a.rows = t.rows ∧ a.pages = t.pages ∧ a.isStatic = t.isStatic ∧
    a.kind = (if t.kind = .sstr then .cstr else t.kind)

/-- The memory has the same blocks, with the same cells, at these addresses. -/
def Agree (P : Nat → Prop) (m m' : Mem) : Prop := ∀ p, P p → m'.cells p = m.cells p

end Verif.AnyObject.Spec
