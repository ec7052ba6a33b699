import Verif.Model.ConfigPrint
import Verif.Spec.ConfigPrint
import Verif.Proof.Forest
import Verif.Proof.ConfigText
import Verif.Props.ConfigParser
/-! ## Printing a configuration -/
set_option linter.unusedSimpArgs false
namespace Verif.Config
open Verif.ConfigDb (Op Out St Name step)
open Verif.Spec.ConfigDb (Db Item Forest Part Below children part_leaf part_node part_nil part_of_below hist_childName
  hist_size hist_read hist_into hist_back hist_not_into stepName stepName_path)
open Verif.Spec.ConfigPrint
open Verif.Spec.ConfigDoc (Lit Data Stmt Stmts Word rowLits rowWords nameOk element elements)
open Verif.Spec.Lexer (Piece QChar text tokens standard)
open Verif.Spec.ConfigText (Says token writable)

variable {B : Type} {pr : Nat → B → List Char} {num : List Char → Bool}

/-! ### Pieces -/

def elementPiece (pr : Nat → B → List Char) (ty : Nat) : Val B → Piece
  | .text s => .quoted (s.map .raw)
  | .num b => .bare (pr ty b)

def rowPieces (pr : Nat → B → List Char) (ty : Nat) (xs : List (Val B)) : List Piece :=
  [.sign '{', .blank ' '] ++ (xs.flatMap fun x => [elementPiece pr ty x, .blank ' ']) ++ [.sign '}', .blank ' ']

def chunks {α : Type} (c : Nat) : Nat → List α → List (List α)
  | 0, _ => []
  | r + 1, xs => xs.take c :: chunks c r (xs.drop c)

def valuePieces (pr : Nat → B → List Char) (v : Leaf B) : List Piece :=
  if v.dims = 2 then
    [.sign '{', .blank ' '] ++ ((chunks v.cols v.rows v.data).flatMap (rowPieces pr v.ty)) ++ [.sign '}', .blank ' ']
  else if v.dims = 1 then rowPieces pr v.ty v.data
  else v.data.map (elementPiece pr v.ty)

def indentPieces (level : Nat) : List Piece := List.replicate (4 * level) (.blank ' ')

def treePieces (pr : Nat → B → List Char) : Nat → Forest (Leaf B) → List Piece
  | _, .nil => []
  | l, .leaf n v r => indentPieces l ++ ([.bare n, .blank ' ', .sign '=', .blank ' '] ++ (valuePieces pr v ++
      ([.blank '\r', .blank '\n'] ++ treePieces pr l r)))
  | l, .node n s r => indentPieces l ++ ([.bare n, .blank ' ', .sign '=', .blank ' ', .sign '{', .blank '\r', .blank '\n'] ++
      (treePieces pr (l + 1) s ++ (indentPieces l ++ ([.sign '}', .blank '\r', .blank '\n'] ++ treePieces pr l r))))

theorem text_append (a b : List Piece) : text (a ++ b) = text a ++ text b := by simp [text]

theorem sub32_add (a b : Nat) : sub32 (a + b) b = a := by
  unfold sub32
  rw [if_neg (by omega)]
  omega

theorem raw_text (s : List Char) : (s.map QChar.raw).flatMap QChar.text = s := by
  induction s with
  | nil => rfl
  | cons c s ih => rw [List.map_cons, List.flatMap_cons, ih]; rfl

theorem print_string (s : List Char) : printCCString ⟨0, false, false⟩ true s = some (true, '"' :: (s ++ ['"'])) := by
  have h : sub32 (s.length + 2) 2 = s.length := sub32_add _ _
  simp [printCCString, h]

theorem text_element (ty : Nat) (x : Val B) : printScalar pr ty x = some (true, (elementPiece pr ty x).text) := by
  cases x with
  | num b => rfl
  | text s => rw [printScalar, print_string, elementPiece, Piece.text, raw_text]

theorem print_elements (v : Leaf B) (off k : Nat) (h : off + k ≤ v.data.length) :
    printElements pr v off k =
      some (true, text (((v.data.drop off).take k).flatMap fun x => [elementPiece pr v.ty x, .blank ' '])) := by
  induction k generalizing off with
  | zero => simp [printElements, text]
  | succ k ih =>
    have hlt : off < v.data.length := by omega
    rw [printElements, List.getElem?_eq_getElem hlt]
    simp only [text_element]
    rw [ih (off + 1) (by omega), List.drop_eq_getElem_cons hlt, List.take_succ_cons]
    simp [text, Piece.text]

theorem print_vector (v : Leaf B) (off k : Nat) (h : off + k ≤ v.data.length) :
    printVector pr v off k = some (true, text (rowPieces pr v.ty ((v.data.drop off).take k))) := by
  rw [printVector, print_elements v off k h]
  simp [rowPieces, text, Piece.text]

theorem print_rows (v : Leaf B) (i k : Nat) (h : (i + k) * v.cols ≤ v.data.length) :
    printRows pr v i k =
      some (true, text ((chunks v.cols k (v.data.drop (i * v.cols))).flatMap (rowPieces pr v.ty))) := by
  induction k generalizing i with
  | zero => simp [printRows, text, chunks]
  | succ k ih =>
    have h1 : (i + 1) * v.cols ≤ (i + (k + 1)) * v.cols := Nat.mul_le_mul_right _ (by omega)
    rw [Nat.succ_mul] at h1
    rw [printRows, print_vector v _ _ (by omega)]
    simp only
    rw [ih (i + 1) (by rw [show i + 1 + k = i + (k + 1) by omega]; exact h), chunks, List.flatMap_cons, text_append,
      List.drop_drop, Nat.succ_mul]
    rfl

theorem print_value (v : Leaf B) (h : shaped v = true) : printValue pr v = some (true, text (valuePieces pr v)) := by
  simp only [shaped, Bool.and_eq_true, Bool.or_eq_true, beq_iff_eq, decide_eq_true_eq] at h
  obtain ⟨⟨⟨h1, h2⟩, h3⟩, h4⟩ := h
  unfold printValue valuePieces
  rcases h1 with (⟨⟨d, c⟩, r⟩ | ⟨d, r⟩) | d
  · rw [c, r] at h4
    rw [d]
    rw [if_neg (by decide), if_neg (by decide), if_pos rfl, if_neg (by decide), if_neg (by decide)]
    match hx : v.data, h4 with
    | [x], _ => simp [text_element, text]
  · rw [r, Nat.one_mul] at h4
    rw [d, if_neg (by decide), if_pos rfl, if_neg (by decide), if_pos rfl, print_vector v 0 _ (by omega)]
    simp only [List.drop_zero]
    rw [← h4, List.take_length]
  · rw [d, if_pos rfl, if_pos rfl, printMatrix, print_rows v 0 _ (by rw [Nat.zero_add, h4]; exact Nat.le_refl _)]
    simp [text, Piece.text]

theorem text_indent (l : Nat) : text (indentPieces l) = indent l := by
  unfold indentPieces indent
  induction l with
  | zero => rfl
  | succ l ih =>
    rw [show 4 * (l + 1) = 4 + 4 * l by omega, ← List.replicate_append_replicate, text_append, ih,
      List.replicate_succ (n := l), List.flatten_cons]
    rfl

/-! ### The traversal -/

theorem stepName_of_good {n : Name} (h : goodName num n = true) : stepName n = true := by
  simp only [goodName, Bool.and_eq_true] at h
  exact h.1.1

theorem print_kids (num : List Char → Bool) : ∀ (F : Forest (Leaf B)) (fuel level i : Nat) (s : St (Leaf B)) (db : Db (Leaf B)),
    Hist s db → Part db.item db.cur i F → F.distinct = true → F.allLeaves (fun _ v => shaped v) = true →
    F.allNodes stepName = true → F.size < fuel →
    ∃ s', printKids pr fuel level (children db.item db.cur).length i s = some (true, text (treePieces pr level F), s') ∧
      Hist s' db := by
  intro F
  induction F with
  | nil =>
    intro fuel level i s db hs hp _ _ _ hf
    obtain ⟨fuel, rfl⟩ : ∃ m, fuel = m + 1 := ⟨fuel - 1, by omega⟩
    have := part_nil hp
    rw [printKids, if_neg (by omega)]
    exact ⟨s, rfl, hs⟩
  | leaf n v r ih =>
    intro fuel level i s db hs hp hd hl hn hf
    obtain ⟨fuel, rfl⟩ : ∃ m, fuel = m + 1 := ⟨fuel - 1, by omega⟩
    simp only [Forest.distinct, Bool.and_eq_true, decide_eq_true_eq] at hd
    simp only [Forest.allLeaves, Bool.and_eq_true] at hl
    simp only [Forest.allNodes] at hn
    simp only [Forest.size] at hf
    obtain ⟨p1, p2, p3, p4⟩ := part_leaf hp hd.1
    obtain ⟨s1, e1, g1⟩ := hist_childName hs p2
    obtain ⟨s2, e2, g2⟩ := hist_read g1 n
    obtain ⟨s3, e3, g3⟩ := ih fuel level (i + 1) s2 db g2 p3 hd.2 hl.2 hn (by omega)
    rw [p4] at e2
    refine ⟨s3, ?_, g3⟩
    rw [printKids, if_pos p1, e1]
    simp only [e2, print_value v hl.1, e3, Option.map_some]
    simp [treePieces, text_append, text_indent]
    simp [text, Piece.text]
  | node n S r ihS ih =>
    intro fuel level i s db hs hp hd hl hn hf
    obtain ⟨fuel, rfl⟩ : ∃ m, fuel = m + 1 := ⟨fuel - 1, by omega⟩
    simp only [Forest.distinct, Bool.and_eq_true, decide_eq_true_eq] at hd
    simp only [Forest.allLeaves, Bool.and_eq_true] at hl
    simp only [Forest.allNodes, Bool.and_eq_true] at hn
    simp only [Forest.size] at hf
    obtain ⟨p1, p2, p3, p4, p5⟩ := part_node hp hd.1.1
    obtain ⟨s1, e1, g1⟩ := hist_childName hs p2
    obtain ⟨s2, e2, g2⟩ := hist_read g1 n
    obtain ⟨s3, e3, g3⟩ := hist_into g2 hn.1.1 p4
    obtain ⟨s4, e4, g4⟩ := hist_size g3
    obtain ⟨s5, e5, g5⟩ := ihS fuel (level + 1) 0 s4 _ g4 p5 hd.1.2 hl.1 hn.1.2 (by omega)
    obtain ⟨s6, e6, g6⟩ := hist_back db.item db.cur n g5
    obtain ⟨s7, e7, g7⟩ := ih fuel level (i + 1) s6 db g6 p3 hd.2 hl.2 hn.2 (by omega)
    rw [p4] at e2
    refine ⟨s7, ?_, g7⟩
    rw [printKids, if_pos p1, e1]
    simp only [e2, e3, e4, e5, e6, e7, Option.map_some]
    simp [treePieces, text_append, text_indent]
    simp [text, Piece.text]
    exact (text_indent level).symm

/-! ### What the text says -/

/-- A text that can be followed by any other. -/
def Closed (a : List Piece) : Prop := ∀ r, Spec.Lexer.ok standard r = true → Spec.Lexer.ok standard (a ++ r) = true

theorem closed_nil : Closed [] := fun _ h => h

theorem closed_append {a b : List Piece} (ha : Closed a) (hb : Closed b) : Closed (a ++ b) := by
  intro r hr
  rw [List.append_assoc]
  exact ha _ (hb _ hr)

theorem closed_one {p : Piece} (h : p.ok standard = true) (hb : ∀ q, p.before standard q = true) : Closed [p] := by
  intro r hr
  simp only [List.cons_append, List.nil_append, Spec.Lexer.ok, h, hb, hr, Bool.and_self]

theorem closed_blank {c : Char} (h : standard.blanks.contains c = true) : Closed [.blank c] :=
  closed_one h (fun _ => rfl)

theorem closed_sign {c : Char} (h : standard.signs.contains c = true) : Closed [.sign c] :=
  closed_one h (fun _ => rfl)

theorem closed_bare {w : List Char} (h : (Piece.bare w).ok standard = true) {c : Char}
    (hc : standard.blanks.contains c = true) : Closed [.bare w, .blank c] := by
  intro r hr
  have h1 : (Piece.blank c).ok standard = true := hc
  simp only [List.cons_append, List.nil_append, Spec.Lexer.ok, h, h1, hr, Bool.and_self, List.head?_cons]
  rfl

theorem closed_quoted {s : List Char} (h : plainText s = true) : Closed [.quoted (s.map .raw)] := by
  refine closed_one ?_ (fun _ => rfl)
  simp only [Piece.ok, List.all_map]
  simp only [plainText] at h
  rw [List.all_eq_true] at h ⊢
  intro c hc
  have := h c hc
  simpa [QChar.ok] using this

theorem closed_element {ty : Nat} {x : Val B} (h : goodElement pr num ty x = true) {c : Char}
    (hc : standard.blanks.contains c = true) : Closed [elementPiece pr ty x, .blank c] := by
  cases x with
  | text s => exact closed_append (a := [_]) (closed_quoted h) (closed_blank hc)
  | num b =>
    simp only [goodElement, writable, Bool.and_eq_true] at h
    exact closed_bare h.1.1 hc

theorem closed_elements {ty : Nat} {xs : List (Val B)} (h : xs.all (goodElement pr num ty) = true) :
    Closed (xs.flatMap fun x => [elementPiece pr ty x, .blank ' ']) := by
  induction xs with
  | nil => exact closed_nil
  | cons x xs ih =>
    rw [List.all_cons, Bool.and_eq_true] at h
    rw [List.flatMap_cons]
    exact closed_append (closed_element h.1 (by decide)) (ih h.2)

theorem closed_row {ty : Nat} {xs : List (Val B)} (h : xs.all (goodElement pr num ty) = true) :
    Closed (rowPieces pr ty xs) := by
  refine closed_append (closed_append ?_ (closed_elements h)) ?_
  · exact closed_append (a := [_]) (closed_sign (by decide)) (closed_blank (by decide))
  · exact closed_append (a := [_]) (closed_sign (by decide)) (closed_blank (by decide))

theorem chunks_mem {α : Type} {c r : Nat} {xs ys : List α} (h : ys ∈ chunks c r xs) : ∀ y ∈ ys, y ∈ xs := by
  induction r generalizing xs with
  | zero => cases h
  | succ r ih =>
    rw [chunks, List.mem_cons] at h
    rcases h with rfl | h
    · intro y hy; exact List.mem_of_mem_take hy
    · intro y hy; exact List.mem_of_mem_drop (ih h y hy)

/-- The pieces of a value, with a blank after them. -/
theorem closed_value {v : Leaf B} (h : goodLeaf pr num v = true) : Closed (valuePieces pr v ++ [.blank '\r', .blank '\n']) := by
  simp only [goodLeaf, Bool.and_eq_true] at h
  obtain ⟨⟨h1, h2⟩, _⟩ := h
  have hrn : Closed [.blank '\r', .blank '\n'] :=
    closed_append (a := [_]) (closed_blank (by decide)) (closed_blank (by decide))
  unfold valuePieces
  split
  · refine closed_append (closed_append (closed_append ?_ ?_) ?_) hrn
    · exact closed_append (a := [_]) (closed_sign (by decide)) (closed_blank (by decide))
    · have : ∀ l : List (List (Val B)), (∀ ys ∈ l, ys.all (goodElement pr num v.ty) = true) →
          Closed (l.flatMap (rowPieces pr v.ty)) := by
        intro l
        induction l with
        | nil => intro _; exact closed_nil
        | cons y l ih =>
          intro hl
          rw [List.flatMap_cons]
          exact closed_append (closed_row (hl y (by simp))) (ih fun ys hy => hl ys (by simp [hy]))
      refine this _ fun ys hys => ?_
      rw [List.all_eq_true] at h2 ⊢
      intro y hy
      exact h2 y (chunks_mem hys y hy)
    · exact closed_append (a := [_]) (closed_sign (by decide)) (closed_blank (by decide))
  · split
    · exact closed_append (closed_row h2) hrn
    · rename_i d2 d1
      simp only [shaped, Bool.and_eq_true, Bool.or_eq_true, beq_iff_eq, decide_eq_true_eq, d2, d1] at h1
      have hl : v.data.length = 1 := by
        have := h1.2
        rcases h1.1.1.1 with (⟨⟨_, c⟩, r⟩ | ⟨d, _⟩) | d
        · rw [c, r] at this; exact this
        · exact d.elim
        · exact d.elim
      match hx : v.data, hl with
      | [x], _ =>
        rw [hx, List.all_cons, Bool.and_eq_true] at h2
        exact closed_append (a := [_, _]) (closed_element h2.1 (by decide)) (closed_blank (by decide))

theorem closed_indent (l : Nat) : Closed (indentPieces l) := by
  unfold indentPieces
  induction 4 * l with
  | zero => exact closed_nil
  | succ n ih => exact closed_append (a := [_]) (closed_blank (by decide)) ih

theorem closed_tree {F : Forest (Leaf B)} (hl : F.allLeaves (fun n v => goodName num n && goodLeaf pr num v) = true)
    (hn : F.allNodes (goodName num) = true) (l : Nat) : Closed (treePieces pr l F) := by
  have name : ∀ n, goodName num n = true → Closed [.bare n, .blank ' '] := by
    intro n h
    simp only [goodName, Bool.and_eq_true] at h
    exact closed_bare h.1.2 (by decide)
  have e1 : Closed [.sign '=', .blank ' '] :=
    closed_append (a := [_]) (closed_sign (by decide)) (closed_blank (by decide))
  have rn : Closed [.blank '\r', .blank '\n'] :=
    closed_append (a := [_]) (closed_blank (by decide)) (closed_blank (by decide))
  have o : Closed [.sign '{', .blank '\r', .blank '\n'] := closed_append (a := [_]) (closed_sign (by decide)) rn
  have c : Closed [.sign '}', .blank '\r', .blank '\n'] := closed_append (a := [_]) (closed_sign (by decide)) rn
  induction F generalizing l with
  | nil => exact closed_nil
  | leaf n v r ih =>
    simp only [Forest.allLeaves, Bool.and_eq_true] at hl
    rw [treePieces]
    refine closed_append (closed_indent l) (closed_append ?_ ?_)
    · exact closed_append (a := [_, _]) (name n hl.1.1) e1
    · rw [← List.append_assoc]
      exact closed_append (closed_value hl.1.2) (ih hl.2 hn l)
  | node n S r ihS ih =>
    simp only [Forest.allLeaves, Bool.and_eq_true] at hl
    simp only [Forest.allNodes, Bool.and_eq_true] at hn
    rw [treePieces]
    refine closed_append (closed_indent l) (closed_append ?_ (closed_append (ihS hl.1 hn.1.2 (l + 1))
      (closed_append (closed_indent l) (closed_append c (ih hl.2 hn.2 l)))))
    exact closed_append (a := [_, _]) (name n hn.1.1) (closed_append (a := [_, _]) e1 o)

end Verif.Config
