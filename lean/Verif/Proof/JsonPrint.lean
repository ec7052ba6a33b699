import Verif.Proof.ConfigPrint2
import Verif.Proof.JsonParser3
import Verif.Proof.JsonText
import Verif.Model.JsonPrint
import Verif.Spec.JsonPrint
/-! ## Values and documents printed in the JSON language -/
set_option linter.unusedSimpArgs false
namespace Verif.Json
open Verif.Config (Leaf Val Conv printScalar elementPiece chunks text_append raw_text text_element lit toPair mkMatrix mkData
  doc tok_nil tok_blank tok_sign tok_some tokens_append chunks_length chunks_count all_chunks shape_cases rows_data elements_text
  full_leaf full_node doc_names map_names)
open Verif.ConfigDb (Op Out St Name step)
open Verif.Spec.ConfigDb (Db Item Forest)
open Verif.Spec.ConfigPrint (shaped plainText isText elementText asText)
open Verif.Spec.ConfigDoc (Lit Data Stmt Stmts nameOk)
open Verif.Spec.JsonDoc
open Verif.Spec.JsonText (token writable)
open Verif.Spec.JsonPrint
open Verif.Spec.Lexer (Piece QChar text tokens json)

variable {B : Type} {pr : Nat → B → List Char} {num : List Char → Bool}

/-! ### Pieces of a value -/

def jElements (pr : Nat → B → List Char) (ty : Nat) : List (Val B) → List Piece
  | [] => []
  | [x] => [elementPiece pr ty x, .blank ' ']
  | x :: y :: xs => [elementPiece pr ty x, .blank ',', .blank ' '] ++ jElements pr ty (y :: xs)

def jRow (pr : Nat → B → List Char) (ty : Nat) (xs : List (Val B)) : List Piece :=
  [.sign '[', .blank ' '] ++ jElements pr ty xs ++ [.sign ']', .blank ' ']

def jRows (pr : Nat → B → List Char) (ty : Nat) : List (List (Val B)) → List Piece
  | [] => []
  | [x] => jRow pr ty x
  | x :: y :: xs => jRow pr ty x ++ [.blank ','] ++ jRows pr ty (y :: xs)

def jValue (pr : Nat → B → List Char) (v : Leaf B) : List Piece :=
  if v.dims = 2 then [.sign '[', .blank ' '] ++ jRows pr v.ty (chunks v.cols v.rows v.data) ++ [.sign ']', .blank ' ']
  else if v.dims = 1 then jRow pr v.ty v.data
  else v.data.map (elementPiece pr v.ty)

theorem json_elements (v : Leaf B) (off k : Nat) (h : off + k ≤ v.data.length) :
    jsonElements pr v off k = some (true, text (jElements pr v.ty ((v.data.drop off).take k))) := by
  induction k generalizing off with
  | zero => simp [jsonElements, text, jElements]
  | succ k ih =>
    have hlt : off < v.data.length := by omega
    rw [jsonElements, List.getElem?_eq_getElem hlt]
    simp only [text_element]
    rw [ih (off + 1) (by omega), List.drop_eq_getElem_cons hlt, List.take_succ_cons]
    cases k with
    | zero => simp [text, Piece.text, jElements]
    | succ k =>
      have hlt' : off + 1 < v.data.length := by omega
      rw [List.drop_eq_getElem_cons hlt', List.take_succ_cons, jElements]
      simp [text, Piece.text]

theorem json_vector (v : Leaf B) (off k : Nat) (h : off + k ≤ v.data.length) :
    jsonVector pr v off k = some (true, text (jRow pr v.ty ((v.data.drop off).take k))) := by
  rw [jsonVector, json_elements v off k h]
  simp [jRow, text, Piece.text]

theorem json_rows (v : Leaf B) (i k : Nat) (h : (i + k) * v.cols ≤ v.data.length) :
    jsonRows pr v i k = some (true, text (jRows pr v.ty (chunks v.cols k (v.data.drop (i * v.cols))))) := by
  induction k generalizing i with
  | zero => simp [jsonRows, text, chunks, jRows]
  | succ k ih =>
    have h1 : (i + 1) * v.cols ≤ (i + (k + 1)) * v.cols := Nat.mul_le_mul_right _ (by omega)
    rw [Nat.succ_mul] at h1
    rw [jsonRows, json_vector v _ _ (by omega)]
    simp only
    rw [ih (i + 1) (by rw [show i + 1 + k = i + (k + 1) by omega]; exact h), chunks, List.drop_drop]
    rw [show i * v.cols + v.cols = (i + 1) * v.cols by rw [Nat.succ_mul]]
    cases k with
    | zero => simp [chunks, jRows, text]
    | succ k => simp [chunks, jRows, text_append]; simp [text, Piece.text]

theorem json_value (v : Leaf B) (h : shaped v = true) : jsonValue pr v = some (true, text (jValue pr v)) := by
  unfold jsonValue jValue
  rcases shape_cases h with ⟨d, c, r, x, hx⟩ | ⟨d, r, hl, h0⟩ | ⟨d, c, r, hl⟩
  · rw [d, if_neg (by decide), if_neg (by decide), if_pos rfl, if_neg (by decide), if_neg (by decide), hx]
    simp [text_element, text]
  · rw [d, if_neg (by decide), if_pos rfl, if_neg (by decide), if_pos rfl, json_vector v 0 _ (by omega)]
    simp only [List.drop_zero]
    rw [← hl, List.take_length]
  · rw [d, if_pos rfl, if_pos rfl, jsonMatrix, json_rows v 0 _ (by rw [Nat.zero_add, hl]; exact Nat.le_refl _)]
    simp [text, Piece.text]

/-! ### Well-formed pieces -/

/-- What may follow a number. -/
def Sep (r : List Piece) : Prop := ∃ p t, r = p :: t ∧ ((∃ c, p = .blank c) ∨ ∃ c, p = .sign c)

/-- A text that can be followed by any other. -/
def Closed (a : List Piece) : Prop := ∀ r, Spec.Lexer.ok json r = true → Spec.Lexer.ok json (a ++ r) = true

theorem closed_nil : Closed [] := fun _ h => h

theorem closed_append {a b : List Piece} (ha : Closed a) (hb : Closed b) : Closed (a ++ b) := by
  intro r hr
  rw [List.append_assoc]
  exact ha _ (hb _ hr)

theorem closed_cons {p : Piece} {b : List Piece} (ha : Closed [p]) (hb : Closed b) : Closed (p :: b) :=
  closed_append (a := [p]) ha hb

theorem closed_one {p : Piece} (h : p.ok json = true) (hb : ∀ q, p.before json q = true) : Closed [p] := by
  intro r hr
  simp only [List.cons_append, List.nil_append, Spec.Lexer.ok, h, hb, hr, Bool.and_self]

theorem closed_blank {c : Char} (h : json.blanks.contains c = true) : Closed [.blank c] := closed_one h (fun _ => rfl)

theorem closed_sign {c : Char} (h : json.signs.contains c = true) : Closed [.sign c] := closed_one h (fun _ => rfl)

theorem closed_quoted {s : List Char} (h : plainText s = true) : Closed [.quoted (s.map .raw)] := by
  refine closed_one ?_ (fun _ => rfl)
  simp only [Piece.ok, List.all_map]
  simp only [plainText] at h
  rw [List.all_eq_true] at h ⊢
  intro c hc
  have := h c hc
  simpa [QChar.ok] using this

/-- An element before a blank or a sign. -/
theorem ok_element {ty : Nat} {x : Val B} (h : goodElement pr num ty x = true) {r : List Piece}
    (hr : Spec.Lexer.ok json r = true) (hs : Sep r) : Spec.Lexer.ok json (elementPiece pr ty x :: r) = true := by
  cases x with
  | text s => exact closed_quoted h r hr
  | num b =>
    simp only [goodElement, writable, Bool.and_eq_true] at h
    obtain ⟨p, t, rfl, hp⟩ := hs
    simp only [elementPiece]
    rw [Spec.Lexer.ok, h.1.1, hr]
    rcases hp with ⟨c, rfl⟩ | ⟨c, rfl⟩ <;> rfl

theorem closed_elements {ty : Nat} : ∀ xs : List (Val B), xs.all (goodElement pr num ty) = true → Closed (jElements pr ty xs)
  | [], _ => closed_nil
  | [x], h => by
    intro r hr
    rw [List.all_cons, Bool.and_eq_true] at h
    exact ok_element h.1 (closed_blank (by decide) r hr) ⟨_, _, rfl, .inl ⟨_, rfl⟩⟩
  | x :: y :: xs, h => by
    intro r hr
    rw [List.all_cons, Bool.and_eq_true] at h
    have := closed_elements (y :: xs) h.2 r hr
    exact ok_element h.1 (closed_blank (by decide) _ (closed_blank (by decide) _ this)) ⟨_, _, rfl, .inl ⟨_, rfl⟩⟩

theorem closed_row {ty : Nat} {xs : List (Val B)} (h : xs.all (goodElement pr num ty) = true) :
    Closed (jRow pr ty xs) := by
  refine closed_append (closed_append ?_ (closed_elements xs h)) ?_
  · exact closed_cons (closed_sign (by decide)) (closed_blank (by decide))
  · exact closed_cons (closed_sign (by decide)) (closed_blank (by decide))

theorem closed_rows {ty : Nat} : ∀ l : List (List (Val B)), (∀ ys ∈ l, ys.all (goodElement pr num ty) = true) →
    Closed (jRows pr ty l)
  | [], _ => closed_nil
  | [x], h => closed_row (h x (by simp))
  | x :: y :: xs, h => by
    rw [jRows]
    exact closed_append (closed_append (closed_row (h x (by simp))) (closed_blank (by decide)))
      (closed_rows (y :: xs) fun ys hy => h ys (List.mem_cons_of_mem _ hy))

theorem ok_value {v : Leaf B} (h : goodLeaf pr num v = true) {r : List Piece} (hr : Spec.Lexer.ok json r = true)
    (hs : Sep r) : Spec.Lexer.ok json (jValue pr v ++ r) = true := by
  simp only [goodLeaf, Bool.and_eq_true] at h
  obtain ⟨⟨h1, h2⟩, _⟩ := h
  have sign : ∀ c, json.signs.contains c = true → Closed [.sign c, .blank ' '] := fun c hc =>
    closed_cons (closed_sign hc) (closed_blank (by decide))
  unfold jValue
  rcases shape_cases h1 with ⟨d, _, _, x, hx⟩ | ⟨d, _, _, h0⟩ | ⟨d, c, _, hl⟩
  · rw [d, if_neg (by decide), if_neg (by decide)]
    rw [hx] at h2 ⊢
    rw [List.all_cons, Bool.and_eq_true] at h2
    exact ok_element h2.1 hr hs
  · rw [d, if_neg (by decide), if_pos rfl]
    exact closed_row h2 r hr
  · rw [d, if_pos rfl]
    exact closed_append (closed_append (sign _ (by decide)) (closed_rows _ fun ys hys => all_chunks h2 ys hys))
      (sign _ (by decide)) r hr

/-! ### Words of a value -/

theorem token_element {ty : Nat} {x : Val B} (h : goodElement pr num ty x = true) :
    (elementPiece pr ty x).token num = some (token (litWord (lit pr ty x))) := by
  cases x with
  | text s => simp [elementPiece, Piece.token, lit, isText, litWord, token, elementText, Config.raw_value]
  | num b =>
    simp only [goodElement, writable, Bool.and_eq_true] at h
    simp [elementPiece, Piece.token, lit, isText, litWord, token, elementText, h.1.2, h.2]

theorem tokens_elements {ty : Nat} : ∀ xs : List (Val B), xs.all (goodElement pr num ty) = true →
    tokens num (jElements pr ty xs) = xs.map fun x => token (litWord (lit pr ty x))
  | [], _ => rfl
  | [x], h => by
    rw [List.all_cons, Bool.and_eq_true] at h
    simp [jElements, tok_some (token_element h.1), tok_blank, tok_nil]
  | x :: y :: xs, h => by
    rw [List.all_cons, Bool.and_eq_true] at h
    rw [jElements, tokens_append, tokens_elements (y :: xs) h.2]
    simp [tok_some (token_element h.1), tok_blank, tok_nil]

theorem tokens_row {ty : Nat} {xs : List (Val B)} (h : xs.all (goodElement pr num ty) = true) (h0 : xs ≠ []) :
    tokens num (jRow pr ty xs) = (rowJ (toPair (xs.map (lit pr ty)))).map token := by
  rw [jRow, tokens_append, tokens_append, tokens_elements xs h, rowJ]
  cases xs with
  | nil => exact absurd rfl h0
  | cons x xs => simp [tok_sign, tok_blank, tok_nil, toPair, token, Function.comp_def]

theorem tokens_rows {ty : Nat} : ∀ l : List (List (Val B)),
    (∀ ys ∈ l, ys.all (goodElement pr num ty) = true ∧ ys ≠ []) →
    tokens num (jRows pr ty l) = ((l.map (·.map (lit pr ty))).map toPair).flatMap (fun r => (rowJ r).map token)
  | [], _ => rfl
  | [x], h => by
    simp [jRows, tokens_row (h x (by simp)).1 (h x (by simp)).2]
  | x :: y :: xs, h => by
    rw [jRows, tokens_append, tokens_append, tokens_rows (y :: xs) fun ys hy => h ys (List.mem_cons_of_mem _ hy),
      tokens_row (h x (by simp)).1 (h x (by simp)).2]
    simp [tok_blank, tok_nil]

theorem tokens_value {v : Leaf B} (h : goodLeaf pr num v = true) :
    tokens num (jValue pr v) = (dataJ (mkData pr v)).map token := by
  simp only [goodLeaf, Bool.and_eq_true] at h
  obtain ⟨⟨h1, h2⟩, _⟩ := h
  unfold jValue mkData
  rcases shape_cases h1 with ⟨d, _, _, x, hx⟩ | ⟨d, _, _, h0⟩ | ⟨d, c, r, hl⟩
  · rw [d, if_neg (by decide), if_neg (by decide), if_neg (by decide), if_neg (by decide)]
    rw [hx] at h2 ⊢
    rw [List.all_cons, Bool.and_eq_true] at h2
    simp [tokens, token_element h2.1, dataJ, toPair]
  · rw [d, if_neg (by decide), if_pos rfl, if_neg (by decide), if_pos rfl, tokens_row h2 h0]
    rfl
  · rw [d, if_pos rfl, if_pos rfl, tokens_append, tokens_append, mkMatrix, dataJ]
    rw [tokens_rows _ (fun ys hys => ⟨all_chunks h2 ys hys, by
      intro e
      have := chunks_length hl ys hys
      rw [e] at this; simp at this; omega⟩)]
    have hne : chunks v.cols v.rows v.data ≠ [] := by
      intro e
      have := chunks_count v.cols v.rows v.data
      rw [e] at this; simp at this; omega
    cases hk : chunks v.cols v.rows v.data with
    | nil => exact absurd hk hne
    | cons y ys => simp [tok_sign, tok_blank, tok_nil, token, List.map_flatMap]

/-! ### The document of a tree -/

theorem value_data (conv : Conv B) {v : Leaf B} (h : goodLeaf pr num v = true) :
    (mkData pr v).value conv none = some (asText pr v) := by
  simp only [goodLeaf, Bool.and_eq_true] at h
  obtain ⟨⟨h1, h2⟩, h3⟩ := h
  obtain ⟨a, b, c, d, e⟩ := rows_data (pr := pr) h1
  have hreg : (mkData pr v).regular = true := by
    rw [Data.regular, a, e]
    simp only [Bool.and_eq_true]
    refine ⟨by rw [List.all_eq_true]; intro r hr; simpa using b r hr, ?_⟩
    simp only [List.all_map, Function.comp_def, lit, Bool.not_not]
    rw [Bool.or_comm] at h3
    simpa using h3
  have ht : Config.typeIndex ("string".toList) = 0 := by decide
  simp only [Data.value, hreg, if_true, Option.getD_none, ht, a, elements_text, Option.map_some, c, d, e, asText,
    List.map_map]
  rfl

theorem doc_item (conv : Conv B) {F : Forest (Leaf B)} (hl : F.allLeaves (fun n v => goodName n && goodLeaf pr num v) = true)
    (hf : F.full = true) (n : Name) (p : List Name) : (doc pr F).item conv n p = (F.map (asText pr)).at n p := by
  induction F generalizing n p with
  | nil => cases hf
  | leaf m v r ih =>
    simp only [Forest.allLeaves, Bool.and_eq_true] at hl
    have hv := value_data conv hl.1.2
    rcases full_leaf (pr := pr) hf with ⟨rfl, e⟩ | ⟨hr, e⟩
    · rw [e, Stmts.item]
      simp only [Forest.map, Forest.at, Stmt.name, Stmt.item, hv, Option.map_some]
    · rw [e, Stmts.item, ih hl.2 hr]
      simp only [Forest.map, Forest.at, Stmt.name, Stmt.item, hv, Option.map_some]
  | node m S r ihS ih =>
    simp only [Forest.allLeaves, Bool.and_eq_true] at hl
    obtain ⟨hs, hr⟩ := full_node (pr := pr) hf
    have hsub : (Stmt.block m (doc pr S)).item conv p = (match p with
      | [] => some (.node (S.map (asText pr)).names)
      | k :: q => (S.map (asText pr)).at k q) := by
      cases p with
      | nil => rw [Stmt.item, doc_names hs, map_names]
      | cons k q => rw [Stmt.item]; exact ihS hl.1 hs k q
    rcases hr with ⟨rfl, e⟩ | ⟨hr, e⟩
    · rw [e, Stmts.item, hsub]
      by_cases hm : m = n <;> cases p <;> simp [Forest.map, Forest.at, Stmt.name, hm]
    · rw [e, Stmts.item, ih hl.2 hr, hsub]
      by_cases hm : m = n <;> cases p <;> simp [Forest.map, Forest.at, Stmt.name, hm]

theorem doc_tree (conv : Conv B) {F : Forest (Leaf B)} (hl : F.allLeaves (fun n v => goodName n && goodLeaf pr num v) = true)
    (hf : F.full = true) : (doc pr F).tree conv = (F.map (asText pr)).item := by
  funext p
  cases p with
  | nil => rw [Stmts.tree, Forest.item, doc_names hf, map_names]
  | cons n p => rw [Stmts.tree, Forest.item]; exact doc_item conv hl hf n p

theorem doc_ok (conv : Conv B) {F : Forest (Leaf B)} (hl : F.allLeaves (fun n v => goodName n && goodLeaf pr num v) = true)
    (hn : F.allNodes goodName = true) (hf : F.full = true) (hd : F.distinct = true) : (doc pr F).ok conv = true := by
  have nm : ∀ n, goodName n = true → nameOk n = true := by
    intro n h
    simp only [goodName, Bool.and_eq_true] at h
    exact h.1
  induction F with
  | nil => cases hf
  | leaf n v r ih =>
    simp only [Forest.allLeaves, Bool.and_eq_true] at hl
    simp only [Forest.distinct, Bool.and_eq_true, decide_eq_true_eq] at hd
    have hv := value_data conv hl.1.2
    rcases full_leaf (pr := pr) hf with ⟨rfl, e⟩ | ⟨hr, e⟩
    · rw [e]; simp [Stmts.ok, Stmt.ok, nm n hl.1.1, hv]
    · rw [e]
      simp [Stmts.ok, Stmt.ok, nm n hl.1.1, hv, ih hl.2 hn hr hd.2, doc_names hr, Stmt.name, hd.1]
  | node n S r ihS ih =>
    simp only [Forest.allLeaves, Bool.and_eq_true] at hl
    simp only [Forest.allNodes, Bool.and_eq_true] at hn
    simp only [Forest.distinct, Bool.and_eq_true, decide_eq_true_eq] at hd
    obtain ⟨hs, hr⟩ := full_node (pr := pr) hf
    have h1 := ihS hl.1 hn.1.2 hs hd.1.2
    rcases hr with ⟨rfl, e⟩ | ⟨hr, e⟩
    · rw [e]; simp [Stmts.ok, Stmt.ok, nm n hn.1.1, h1]
    · rw [e]
      simp [Stmts.ok, Stmt.ok, nm n hn.1.1, h1, ih hl.2 hn.2 hr hd.2, doc_names hr, Stmt.name, hd.1]

end Verif.Json
