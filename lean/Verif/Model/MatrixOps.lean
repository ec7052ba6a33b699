import Mathlib.Algebra.Field.Basic
/-!
# Model of `Matrix<T>`

The elements are in a memory of cells, so that two matrices may share them.  Simplifications: the arithmetic of the
elements is the exact one of a ring (`Product`, `Sum`) or of a field (`Determinant`, `Inverse`), without rounding; the
allocations succeed; the matrices of the minors are new, so they are values of their own, with any initial content.
-/
namespace Verif.MatrixOps

/-- The memory: what is in each cell. -/
abbrev Mem (K : Type _) := Nat → K

/-- `Matrix.h:338-365`: how `dataPointer` is used: an array of all the elements (`staticDeclared`), or an array of
pointers to the rows. -/
inductive Storage
  | flat (base : Nat)
  | rows (ptr : Nat → Nat)

/-- `Matrix.h:338-365`: the members of `Matrix<T>`. -/
structure Mat where
  numRows : Nat
  numCols : Nat
  store : Storage

/-- `Matrix.h:518-538` `operator[]` and the element of the row: the index of the row is a product of `uint32`. -/
def cell (a : Mat) (i j : Nat) : Nat :=
  match a.store with
  | .flat base => base + i * a.numCols % 2 ^ 32 + j
  | .rows ptr => ptr i + j

/-- `Matrix.h:691` and `699`: the element in `Copy`, whose index is computed at once. -/
def cellCopy (a : Mat) (i j : Nat) : Nat :=
  match a.store with
  | .flat base => base + (i * a.numCols + j) % 2 ^ 32
  | .rows ptr => ptr i + j

/-- An assignment to a cell. -/
def write {K} (m : Mem K) (c : Nat) (v : K) : Mem K := fun d => if d = c then v else m d

/-- `for (i = 0; i < n; i++)`. -/
def loop {σ} : Nat → (Nat → σ → σ) → σ → σ
  | 0, _, s => s
  | n + 1, f, s => f n (loop n f s)

/-- `Matrix.h:631-655` `Product`. -/
def product {K} [Zero K] [Add K] [Mul K] (m : Mem K) (a b r : Mat) : Bool × Mem K :=
  if b.numRows = a.numCols ∧ r.numRows = a.numRows ∧ r.numCols = b.numCols then
    (true, loop a.numRows (fun i => loop b.numCols fun j s =>
      loop a.numCols (fun k s => write s (cell r i j) (s (cell r i j) + s (cell a i k) * s (cell b k j)))
        (write s (cell r i j) 0)) m)
  else (false, m)

/-- `Matrix.h:658-679` `Sum`. -/
def sum {K} [Add K] (m : Mem K) (a b r : Mat) : Bool × Mem K :=
  if (b.numRows = a.numRows ∧ r.numRows = a.numRows) ∧ (b.numCols = a.numCols ∧ r.numCols = a.numCols) then
    (true, loop a.numRows (fun i => loop a.numCols fun j s =>
      write s (cell r i j) (s (cell a i j) + s (cell b i j))) m)
  else (false, m)

/-- `Matrix.h:681-705` `Copy`: `a` is `*this`. -/
def copy {K} (m : Mem K) (a b : Mat) : Bool × Mem K :=
  if b.numRows = a.numRows ∧ b.numCols = a.numCols then
    (true, loop a.numRows (fun i => loop a.numCols fun j s => write s (cellCopy a i j) (s (cell b i j))) m)
  else (false, m)

/-- `Matrix.h:707-746` `SubMatrix`. -/
def subMatrix {K} (m : Mem K) (a : Mat) (beginRow endRow beginCol endCol : Nat) (r : Mat) : Bool × Mem K :=
  if beginRow ≤ endRow ∧ beginCol ≤ endCol ∧ endRow < a.numRows ∧ endCol < a.numCols then
    if r.numRows = endRow - beginRow + 1 ∧ r.numCols = endCol - beginCol + 1 then
      (true, loop (endRow - beginRow + 1) (fun i => loop (endCol - beginCol + 1) fun j s =>
        write s (cell r i j) (s (cell a (beginRow + i) (beginCol + j)))) m)
    else (false, m)
  else (false, m)

/-- `Matrix.h:748-772` `Transpose`. -/
def transpose {K} (m : Mem K) (a r : Mat) : Bool × Mem K :=
  if a.numRows = r.numCols ∧ a.numCols = r.numRows then
    (true, loop a.numRows (fun i => loop a.numCols fun j s => write s (cell r j i) (s (cell a i j))) m)
  else (false, m)

/-- An assignment to an element of a matrix of a minor. -/
def put {K} (g : Nat → Nat → K) (n c : Nat) (v : K) : Nat → Nat → K :=
  fun x y => if x = n ∧ y = c then v else g x y

/-- `Matrix.h:803-810`, `855-862`, `909-917`, `966-974`: one row of a minor: all the columns but `k`. -/
def fillRow {K} (cols k : Nat) (src : Nat → K) (n : Nat) (g : Nat → Nat → K) : Nat × (Nat → Nat → K) :=
  loop cols (fun j st => if j ≠ k then (st.1 + 1, put st.2 n st.1 (src j)) else st) (0, g)

/-- `Matrix.h:801-812`, `853-864`: the minor of `Determinant`: all the rows but the first. -/
def minorDet {K} (rows cols k : Nat) (f g : Nat → Nat → K) : Nat → Nat → K :=
  (loop (rows - 1) (fun i st => (st.1 + 1, (fillRow cols k (f (i + 1)) st.1 st.2).2)) (0, g)).2

/-- `Matrix.h:816`, `868`: the sign. -/
def sign {K} [One K] [Neg K] (k : Nat) : K := if k &&& 1 = 0 then 1 else -1

/-- `Matrix.h:779-825` and `831-876` `Determinant` of a square matrix with `n` rows; `junk` is what new matrices have. -/
def det {K} [Zero K] [One K] [Add K] [Mul K] [Neg K] (junk : Nat → Nat → K) : Nat → (Nat → Nat → K) → K
  | 0, _ => 0
  | 1, f => f 0 0
  | n + 2, f =>
    loop (n + 2) (fun k acc => acc + (sign k * f 0 k) * det junk (n + 1) (minorDet (n + 2) (n + 2) k f junk)) 0

/-- `Matrix.h:779-825` and `831-876` `Determinant`; `old` is what `det` has before. -/
def determinant {K} [Zero K] [One K] [Add K] [Mul K] [Neg K] (junk : Nat → Nat → K) (m : Mem K) (a : Mat) (old : K) : Bool × K :=
  if a.numRows = a.numCols then (true, det junk a.numRows fun i j => m (cell a i j)) else (false, old)

/-- `Matrix.h:907-920`, `964-977`: the minor of `Inverse`: all the rows but `i` and all the columns but `j`, in the
matrix of the previous one. -/
def minorInv {K} (rows cols i j : Nat) (f g : Nat → Nat → K) : Nat → Nat → K :=
  (loop rows (fun h st => if h ≠ i then (st.1 + 1, (fillRow cols j (f h) st.1 st.2).2) else st) (0, g)).2

/-- `Matrix.h:882-932` and `939-988` `Inverse`. -/
def inverse {K} [Zero K] [One K] [Add K] [Mul K] [Neg K] [Div K] [DecidableEq K] (junk : Nat → Nat → K) (m : Mem K) (a v : Mat) :
    Bool × Mem K :=
  let d := determinant junk m a 0
  if a.numCols = a.numRows ∧ v.numRows = a.numRows ∧ v.numCols = a.numCols ∧ d.1 = true ∧ d.2 ≠ 0 then
    (true, (loop a.numRows (fun i => loop a.numCols fun j (st : Mem K × (Nat → Nat → K)) =>
      let g := minorInv a.numRows a.numCols i j (fun x y => st.1 (cell a x y)) st.2
      (write st.1 (cell v j i) (det junk (a.numRows - 1) g * sign (i + j) / d.2), g)) (m, junk)).1)
  else (false, m)

end Verif.MatrixOps
