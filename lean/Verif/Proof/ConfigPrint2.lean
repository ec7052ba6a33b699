import Verif.Proof.ConfigPrint
/-! ## The document that is printed -/
set_option linter.unusedSimpArgs false
namespace Verif.Config
open Verif.ConfigDb (Op Out St Name step)
open Verif.Spec.ConfigDb (Db Item Forest)
open Verif.Spec.ConfigPrint
open Verif.Spec.ConfigDoc (Lit Data Stmt Stmts Word rowLits rowWords nameOk element elements)
open Verif.Spec.Lexer (Piece QChar text tokens standard)
open Verif.Spec.ConfigText (Says token writable)

variable {B : Type} {pr : Nat → B → List Char} {num : List Char → Bool}

def lit (pr : Nat → B → List Char) (ty : Nat) (x : Val B) : Lit := ⟨!isText x, elementText pr ty x⟩

def toPair (ls : List Lit) : Lit × List Lit := (ls.headD ⟨false, []⟩, ls.tail)

def mkMatrix (rows : List (List Lit)) : Data := .matrix (toPair (rows.headD [])) (rows.tail.map toPair)

def mkData (pr : Nat → B → List Char) (v : Leaf B) : Data :=
  if v.dims = 2 then mkMatrix ((chunks v.cols v.rows v.data).map (·.map (lit pr v.ty)))
  else if v.dims = 1 then .vector (toPair (v.data.map (lit pr v.ty))).1 (toPair (v.data.map (lit pr v.ty))).2
  else .scalar (toPair (v.data.map (lit pr v.ty))).1

def doc (pr : Nat → B → List Char) : Forest (Leaf B) → Stmts
  | .nil => .one (.leaf [] none (.scalar ⟨false, []⟩))
  | .leaf n v .nil => .one (.leaf n none (mkData pr v))
  | .leaf n v r => .more (.leaf n none (mkData pr v)) (doc pr r)
  | .node n s .nil => .one (.block n (doc pr s))
  | .node n s r => .more (.block n (doc pr s)) (doc pr r)

theorem full_leaf {n : Name} {v : Leaf B} {r : Forest (Leaf B)} (h : (Forest.leaf n v r).full = true) :
    (r = .nil ∧ doc pr (.leaf n v r) = .one (.leaf n none (mkData pr v))) ∨
    (r.full = true ∧ doc pr (.leaf n v r) = .more (.leaf n none (mkData pr v)) (doc pr r)) := by
  cases r with
  | nil => exact .inl ⟨rfl, rfl⟩
  | leaf a b c => exact .inr ⟨h, rfl⟩
  | node a b c => exact .inr ⟨h, rfl⟩

theorem full_node {n : Name} {s r : Forest (Leaf B)} (h : (Forest.node n s r).full = true) : s.full = true ∧
    ((r = .nil ∧ doc pr (.node n s r) = .one (.block n (doc pr s))) ∨
    (r.full = true ∧ doc pr (.node n s r) = .more (.block n (doc pr s)) (doc pr r))) := by
  cases r with
  | nil => exact ⟨h, .inl ⟨rfl, rfl⟩⟩
  | leaf a b c =>
    simp only [Forest.full, Bool.and_eq_true] at h
    exact ⟨h.1, .inr ⟨h.2, rfl⟩⟩
  | node a b c =>
    simp only [Forest.full, Bool.and_eq_true] at h
    exact ⟨h.1, .inr ⟨by simpa [Forest.full] using h.2, rfl⟩⟩

/-! ### Words -/

theorem tokens_append (a b : List Piece) : tokens num (a ++ b) = tokens num a ++ tokens num b := by
  simp [tokens, List.filterMap_append]

theorem tok_nil : tokens num [] = [] := rfl

theorem tok_blank (c : Char) (ps : List Piece) : tokens num (.blank c :: ps) = tokens num ps := rfl

theorem tok_sign (c : Char) (ps : List Piece) : tokens num (.sign c :: ps) = (.terminal, [c]) :: tokens num ps := rfl

theorem tok_some {p : Piece} {t} (h : p.token num = some t) (ps : List Piece) :
    tokens num (p :: ps) = t :: tokens num ps := by
  simp [tokens, h]

theorem raw_value (s : List Char) : (s.map QChar.raw).flatMap QChar.value = s := by
  induction s with
  | nil => rfl
  | cons c s ih => rw [List.map_cons, List.flatMap_cons, ih]; rfl

theorem token_element {ty : Nat} {x : Val B} (h : goodElement pr num ty x = true) :
    (elementPiece pr ty x).token num = some (token (lit pr ty x).word) := by
  cases x with
  | text s => simp [elementPiece, Piece.token, lit, isText, Lit.word, token, elementText, raw_value]
  | num b =>
    simp only [goodElement, writable, Bool.and_eq_true] at h
    simp [elementPiece, Piece.token, lit, isText, Lit.word, token, elementText, h.1.2, h.2]

theorem tokens_elements {ty : Nat} {xs : List (Val B)} (h : xs.all (goodElement pr num ty) = true) :
    tokens num (xs.flatMap fun x => [elementPiece pr ty x, .blank ' ']) = (xs.map fun x => token (lit pr ty x).word) := by
  induction xs with
  | nil => rfl
  | cons x xs ih =>
    rw [List.all_cons, Bool.and_eq_true] at h
    rw [List.flatMap_cons, tokens_append, ih h.2]
    simp [tok_some (token_element h.1), tok_blank, tok_nil]

theorem tokens_row {ty : Nat} {xs : List (Val B)} (h : xs.all (goodElement pr num ty) = true) (h0 : xs ≠ []) :
    tokens num (rowPieces pr ty xs) = (rowWords (toPair (xs.map (lit pr ty)))).map token := by
  rw [rowPieces, tokens_append, tokens_append, tokens_elements h, rowWords]
  cases xs with
  | nil => exact absurd rfl h0
  | cons x xs => simp [tok_sign, tok_blank, tok_nil, rowLits, toPair, token, Function.comp_def]

theorem chunks_length {α : Type} {c r : Nat} {xs : List α} (h : xs.length = r * c) :
    ∀ ys ∈ chunks c r xs, ys.length = c := by
  induction r generalizing xs with
  | zero => intro ys hy; cases hy
  | succ r ih =>
    intro ys hy
    rw [Nat.succ_mul] at h
    rw [chunks, List.mem_cons] at hy
    rcases hy with rfl | hy
    · rw [List.length_take]; omega
    · exact ih (by rw [List.length_drop]; omega) ys hy

theorem chunks_flatten {α : Type} {c r : Nat} {xs : List α} (h : xs.length = r * c) : (chunks c r xs).flatten = xs := by
  induction r generalizing xs with
  | zero =>
    rw [Nat.zero_mul, List.length_eq_zero_iff] at h
    subst h; rfl
  | succ r ih =>
    rw [Nat.succ_mul] at h
    rw [chunks, List.flatten_cons, ih (by rw [List.length_drop]; omega), List.take_append_drop]

theorem chunks_count {α : Type} (c r : Nat) (xs : List α) : (chunks c r xs).length = r := by
  induction r generalizing xs with
  | zero => rfl
  | succ r ih => rw [chunks, List.length_cons, ih]

theorem all_chunks {P : Val B → Bool} {c r : Nat} {xs : List (Val B)} (h : xs.all P = true) :
    ∀ ys ∈ chunks c r xs, ys.all P = true := by
  intro ys hys
  rw [List.all_eq_true] at h ⊢
  intro y hy
  exact h y (chunks_mem hys y hy)

/-- The three shapes. -/
theorem shape_cases {v : Leaf B} (h : shaped v = true) :
    (v.dims = 0 ∧ v.cols = 1 ∧ v.rows = 1 ∧ ∃ x, v.data = [x]) ∨
    (v.dims = 1 ∧ v.rows = 1 ∧ v.data.length = v.cols ∧ v.data ≠ []) ∨
    (v.dims = 2 ∧ 1 ≤ v.cols ∧ 1 ≤ v.rows ∧ v.data.length = v.rows * v.cols) := by
  simp only [shaped, Bool.and_eq_true, Bool.or_eq_true, beq_iff_eq, decide_eq_true_eq] at h
  obtain ⟨⟨⟨h1, h2⟩, h3⟩, h4⟩ := h
  rcases h1 with (⟨⟨d, c⟩, r⟩ | ⟨d, r⟩) | d
  · rw [c, r] at h4
    match hx : v.data, h4 with
    | [x], _ => exact .inl ⟨d, c, r, x, rfl⟩
  · rw [r, Nat.one_mul] at h4
    exact .inr (.inl ⟨d, r, h4, by intro e; rw [e] at h4; simp at h4; omega⟩)
  · exact .inr (.inr ⟨d, h2, h3, h4⟩)

theorem tokens_value {v : Leaf B} (h : goodLeaf pr num v = true) :
    tokens num (valuePieces pr v) = (mkData pr v).words.map token := by
  simp only [goodLeaf, Bool.and_eq_true] at h
  obtain ⟨⟨h1, h2⟩, _⟩ := h
  unfold valuePieces mkData
  rcases shape_cases h1 with ⟨d, _, _, x, hx⟩ | ⟨d, _, _, h0⟩ | ⟨d, c, r, hl⟩
  · rw [d, if_neg (by decide), if_neg (by decide), if_neg (by decide), if_neg (by decide)]
    rw [hx] at h2 ⊢
    rw [List.all_cons, Bool.and_eq_true] at h2
    simp [tokens, token_element h2.1, Data.words, toPair]
  · rw [d, if_neg (by decide), if_pos rfl, if_neg (by decide), if_pos rfl, tokens_row h2 h0]
    rfl
  · rw [d, if_pos rfl, if_pos rfl, tokens_append, tokens_append, mkMatrix, Data.words]
    have hc : ∀ l : List (List (Val B)), (∀ ys ∈ l, ys.all (goodElement pr num v.ty) = true ∧ ys ≠ []) →
        tokens num (l.flatMap (rowPieces pr v.ty)) =
          ((l.map (·.map (lit pr v.ty))).map toPair).flatMap (fun r => (rowWords r).map token) := by
      intro l
      induction l with
      | nil => intro _; rfl
      | cons y l ih =>
        intro hl
        rw [List.flatMap_cons, tokens_append, ih (fun ys hy => hl ys (by simp [hy])),
          tokens_row (hl y (by simp)).1 (hl y (by simp)).2]
        rfl
    rw [hc _ (fun ys hys => ⟨all_chunks h2 ys hys, by
      intro e
      have := chunks_length hl ys hys
      rw [e] at this; simp at this; omega⟩)]
    have hne : chunks v.cols v.rows v.data ≠ [] := by
      intro e
      have := chunks_count v.cols v.rows v.data
      rw [e] at this; simp at this; omega
    cases hk : chunks v.cols v.rows v.data with
    | nil => exact absurd hk hne
    | cons y ys => simp [tok_sign, tok_blank, tok_nil, token, List.map_flatMap]

theorem tokens_indent (l : Nat) : tokens num (indentPieces l) = [] := by
  unfold indentPieces
  induction 4 * l with
  | zero => rfl
  | succ n ih => rw [List.replicate_succ, tokens, List.filterMap_cons]; exact ih

theorem token_name {n : Name} (h : goodName num n = true) : (Piece.bare n).token num = some (.string, n) := by
  simp only [goodName, Bool.and_eq_true, Bool.not_eq_true'] at h
  rw [Piece.token, h.2]
  rfl

theorem tokens_tree {F : Forest (Leaf B)} (hl : F.allLeaves (fun n v => goodName num n && goodLeaf pr num v) = true)
    (hn : F.allNodes (goodName num) = true) (hf : F.full = true) (l : Nat) :
    tokens num (treePieces pr l F) = (doc pr F).words.map token := by
  induction F generalizing l with
  | nil => cases hf
  | leaf n v r ih =>
    simp only [Forest.allLeaves, Bool.and_eq_true] at hl
    have head : tokens num [.bare n, .blank ' ', .sign '=', .blank ' '] = [(.string, n), (.terminal, ['='])] := by
      simp [tok_some (token_name hl.1.1), tok_sign, tok_blank, tok_nil]
    have tail : tokens num [.blank '\r', .blank '\n'] = [] := rfl
    rw [treePieces, tokens_append, tokens_append, tokens_append, tokens_append, tokens_indent, head, tail,
      tokens_value hl.1.2]
    rcases full_leaf (pr := pr) hf with ⟨rfl, e⟩ | ⟨hr, e⟩
    · rw [e]
      simp [treePieces, tokens, Stmts.words, Stmt.words, token, Spec.ConfigDoc.castWords]
    · rw [e, ih hl.2 hn hr]
      simp [Stmts.words, Stmt.words, token, Spec.ConfigDoc.castWords]
  | node n S r ihS ih =>
    simp only [Forest.allLeaves, Bool.and_eq_true] at hl
    simp only [Forest.allNodes, Bool.and_eq_true] at hn
    have head : tokens num [.bare n, .blank ' ', .sign '=', .blank ' ', .sign '{', .blank '\r', .blank '\n'] =
        [(.string, n), (.terminal, ['=']), (.terminal, ['{'])] := by
      simp [tok_some (token_name hn.1.1), tok_sign, tok_blank, tok_nil]
    have tail : tokens num [.sign '}', .blank '\r', .blank '\n'] = [(.terminal, ['}'])] := rfl
    obtain ⟨hs, hr⟩ := full_node (pr := pr) hf
    rw [treePieces, tokens_append, tokens_append, tokens_append, tokens_append, tokens_append, tokens_indent, head, tail,
      ihS hl.1 hn.1.2 hs]
    rcases hr with ⟨rfl, e⟩ | ⟨hr, e⟩
    · rw [e]
      simp [treePieces, tokens, Stmts.words, Stmt.words, token]
    · rw [e, ih hl.2 hn.2 hr]
      simp [Stmts.words, Stmt.words, token]

theorem tree_says {F : Forest (Leaf B)} (hl : F.allLeaves (fun n v => goodName num n && goodLeaf pr num v) = true)
    (hn : F.allNodes (goodName num) = true) (hf : F.full = true) (l : Nat) :
    Says num (treePieces pr l F) (doc pr F).words := by
  refine ⟨?_, tokens_tree hl hn hf l⟩
  have := closed_tree hl hn l [] rfl
  rwa [List.append_nil] at this

/-! ### Values -/

theorem elements_text (conv : Conv B) (ls : List Lit) : elements conv 0 ls = some (ls.map fun l => .text l.text) := by
  induction ls with
  | nil => rfl
  | cons l ls ih => simp [elements, ih, element]

theorem pair_lits {ls : List Lit} (h : ls ≠ []) : rowLits (toPair ls) = ls := by
  cases ls with
  | nil => exact absurd rfl h
  | cons l ls => rfl

theorem rows_data {v : Leaf B} (h : shaped v = true) :
    (mkData pr v).rows.flatten = v.data.map (lit pr v.ty) ∧ (∀ r ∈ (mkData pr v).rows, r.length = v.cols) ∧
    (mkData pr v).rows.length = v.rows ∧ (mkData pr v).dims = v.dims ∧ (mkData pr v).cols = v.cols := by
  unfold mkData
  rcases shape_cases h with ⟨d, c, r, x, hx⟩ | ⟨d, r, hl, h0⟩ | ⟨d, c, r, hl⟩
  · rw [d, if_neg (by decide), if_neg (by decide), hx, c, r]
    simp [Data.rows, toPair, Data.dims, Data.cols]
  · rw [d, if_neg (by decide), if_pos rfl, r]
    have e : (toPair (v.data.map (lit pr v.ty))).1 :: (toPair (v.data.map (lit pr v.ty))).2 = v.data.map (lit pr v.ty) :=
      pair_lits (by simpa using h0)
    simp only [Data.rows, Data.dims, Data.cols, e, List.headD_cons]
    simp [hl]
  · rw [d, if_pos rfl, mkMatrix]
    have hk := chunks_count v.cols v.rows v.data
    have hlen := chunks_length hl
    have hfl := chunks_flatten hl
    generalize chunks v.cols v.rows v.data = ys at hk hlen hfl
    match ys, hk with
    | [], hk => simp at hk; omega
    | y :: ys, hk =>
      have e : ((y :: ys).map (·.map (lit pr v.ty))).map (fun l => rowLits (toPair l)) = (y :: ys).map (·.map (lit pr v.ty)) := by
        rw [List.map_map]
        apply List.map_congr_left
        intro z hz
        exact pair_lits (by
          intro e
          have := hlen z hz
          simp only [List.map_eq_nil_iff] at e
          rw [e] at this; simp at this; omega)
      have er : (Data.matrix (toPair (((y :: ys).map (·.map (lit pr v.ty))).headD []))
          ((((y :: ys).map (·.map (lit pr v.ty))).tail).map toPair)).rows = (y :: ys).map (·.map (lit pr v.ty)) := by
        refine Eq.trans ?_ e
        simp [Data.rows]
      refine ⟨?_, ?_, ?_, rfl, ?_⟩
      · rw [er, ← hfl, List.map_flatten]
      · rw [er]
        intro r hr
        obtain ⟨z, hz, rfl⟩ := List.mem_map.mp hr
        rw [List.length_map]; exact hlen z hz
      · rw [er, List.length_map, hk]
      · rw [Data.cols, er]
        simp only [List.map_cons, List.headD_cons, List.length_map]
        exact hlen y (by simp)

theorem value_data (conv : Conv B) {v : Leaf B} (h : goodLeaf pr num v = true) :
    (mkData pr v).value conv none = some (asText pr v) := by
  simp only [goodLeaf, Bool.and_eq_true] at h
  obtain ⟨⟨h1, h2⟩, h3⟩ := h
  obtain ⟨a, b, c, d, e⟩ := rows_data (pr := pr) h1
  have hreg : (mkData pr v).regular = true := by
    rw [Data.regular, a, e]
    simp only [Bool.and_eq_true]
    refine ⟨by rw [List.all_eq_true]; intro r hr; simpa using b r hr, ?_⟩
    simp only [List.all_map, Function.comp_def, lit, Bool.not_not]
    rw [Bool.or_comm] at h3
    simpa using h3
  have ht : typeIndex ("string".toList) = 0 := by decide
  simp only [Data.value, hreg, if_true, Option.getD_none, ht, a, elements_text, Option.map_some, c, d, e, asText,
    List.map_map]
  rfl

theorem doc_names {F : Forest (Leaf B)} (hf : F.full = true) : (doc pr F).names = F.names := by
  induction F with
  | nil => cases hf
  | leaf n v r ih =>
    rcases full_leaf (pr := pr) hf with ⟨rfl, e⟩ | ⟨hr, e⟩
    · rfl
    · rw [e, Stmts.names, ih hr]; rfl
  | node n S r ihS ih =>
    obtain ⟨hs, hr⟩ := full_node (pr := pr) hf
    rcases hr with ⟨rfl, e⟩ | ⟨hr, e⟩
    · rfl
    · rw [e, Stmts.names, ih hr]; rfl

theorem map_names {V W : Type} (f : V → W) (F : Forest V) : (F.map f).names = F.names := by
  induction F with
  | nil => rfl
  | leaf n v r ih => rw [Forest.map, Forest.names, ih, Forest.names]
  | node n S r ihS ih => rw [Forest.map, Forest.names, ih, Forest.names]

theorem doc_item (conv : Conv B) {F : Forest (Leaf B)} (hl : F.allLeaves (fun n v => goodName num n && goodLeaf pr num v) = true)
    (hf : F.full = true) (n : Name) (p : List Name) : (doc pr F).item conv n p = (F.map (asText pr)).at n p := by
  induction F generalizing n p with
  | nil => cases hf
  | leaf m v r ih =>
    simp only [Forest.allLeaves, Bool.and_eq_true] at hl
    have hv := value_data conv hl.1.2
    rcases full_leaf (pr := pr) hf with ⟨rfl, e⟩ | ⟨hr, e⟩
    · rw [e, Stmts.item]
      simp only [Forest.map, Forest.at, Stmt.name, Stmt.item, hv, Option.map_some]
    · rw [e, Stmts.item, ih hl.2 hr]
      simp only [Forest.map, Forest.at, Stmt.name, Stmt.item, hv, Option.map_some]
  | node m S r ihS ih =>
    simp only [Forest.allLeaves, Bool.and_eq_true] at hl
    obtain ⟨hs, hr⟩ := full_node (pr := pr) hf
    have hsub : (Stmt.block m (doc pr S)).item conv p = (match p with
      | [] => some (.node (S.map (asText pr)).names)
      | k :: q => (S.map (asText pr)).at k q) := by
      cases p with
      | nil => rw [Stmt.item, doc_names hs, map_names]
      | cons k q => rw [Stmt.item]; exact ihS hl.1 hs k q
    rcases hr with ⟨rfl, e⟩ | ⟨hr, e⟩
    · rw [e, Stmts.item, hsub]
      by_cases hm : m = n <;> cases p <;> simp [Forest.map, Forest.at, Stmt.name, hm]
    · rw [e, Stmts.item, ih hl.2 hr, hsub]
      by_cases hm : m = n <;> cases p <;> simp [Forest.map, Forest.at, Stmt.name, hm]

theorem doc_tree (conv : Conv B) {F : Forest (Leaf B)} (hl : F.allLeaves (fun n v => goodName num n && goodLeaf pr num v) = true)
    (hf : F.full = true) : (doc pr F).tree conv = (F.map (asText pr)).item := by
  funext p
  cases p with
  | nil => rw [Stmts.tree, Forest.item, doc_names hf, map_names]
  | cons n p => rw [Stmts.tree, Forest.item]; exact doc_item conv hl hf n p

theorem doc_depth {F : Forest (Leaf B)} (hf : F.full = true) : (doc pr F).depth ≤ F.depth := by
  induction F with
  | nil => cases hf
  | leaf n v r ih =>
    rcases full_leaf (pr := pr) hf with ⟨rfl, e⟩ | ⟨hr, e⟩
    · rw [e]; exact Nat.zero_le _
    · rw [e, Stmts.depth, Stmt.depth, Forest.depth]
      have := ih hr
      omega
  | node n S r ihS ih =>
    obtain ⟨hs, hr⟩ := full_node (pr := pr) hf
    have h1 := ihS hs
    rcases hr with ⟨rfl, e⟩ | ⟨hr, e⟩
    · rw [e, Stmts.depth, Stmt.depth, Forest.depth]; omega
    · rw [e, Stmts.depth, Stmt.depth, Forest.depth]
      have := ih hr
      omega

theorem doc_ok (conv : Conv B) {F : Forest (Leaf B)} (hl : F.allLeaves (fun n v => goodName num n && goodLeaf pr num v) = true)
    (hn : F.allNodes (goodName num) = true) (hf : F.full = true) (hd : F.distinct = true) : (doc pr F).ok conv = true := by
  have nm : ∀ n, goodName num n = true → nameOk n = true := by
    intro n h
    simp only [goodName, Bool.and_eq_true] at h
    exact h.1.1
  induction F with
  | nil => cases hf
  | leaf n v r ih =>
    simp only [Forest.allLeaves, Bool.and_eq_true] at hl
    simp only [Forest.distinct, Bool.and_eq_true, decide_eq_true_eq] at hd
    have hv := value_data conv hl.1.2
    rcases full_leaf (pr := pr) hf with ⟨rfl, e⟩ | ⟨hr, e⟩
    · rw [e]; simp [Stmts.ok, Stmt.ok, nm n hl.1.1, hv]
    · rw [e]
      simp [Stmts.ok, Stmt.ok, nm n hl.1.1, hv, ih hl.2 hn hr hd.2, doc_names hr, Stmt.name, hd.1]
  | node n S r ihS ih =>
    simp only [Forest.allLeaves, Bool.and_eq_true] at hl
    simp only [Forest.allNodes, Bool.and_eq_true] at hn
    simp only [Forest.distinct, Bool.and_eq_true, decide_eq_true_eq] at hd
    obtain ⟨hs, hr⟩ := full_node (pr := pr) hf
    have h1 := ihS hl.1 hn.1.2 hs hd.1.2
    rcases hr with ⟨rfl, e⟩ | ⟨hr, e⟩
    · rw [e]; simp [Stmts.ok, Stmt.ok, nm n hn.1.1, h1]
    · rw [e]
      simp [Stmts.ok, Stmt.ok, nm n hn.1.1, h1, ih hl.2 hn.2 hr hd.2, doc_names hr, Stmt.name, hd.1]

/-! ### The whole of `Printf("%!")` -/

theorem leaves_shaped {F : Forest (Leaf B)} (hl : F.allLeaves (fun n v => goodName num n && goodLeaf pr num v) = true) :
    F.allLeaves (fun _ v => shaped v) = true := by
  induction F with
  | nil => rfl
  | leaf n v r ih =>
    simp only [Forest.allLeaves, goodLeaf, Bool.and_eq_true] at hl ⊢
    exact ⟨hl.1.2.1.1, ih (by simpa [goodLeaf] using hl.2)⟩
  | node n S r ihS ih =>
    simp only [Forest.allLeaves, Bool.and_eq_true] at hl ⊢
    exact ⟨ihS hl.1, ih hl.2⟩

theorem nodes_step {F : Forest (Leaf B)} (hn : F.allNodes (goodName num) = true) :
    F.allNodes Spec.ConfigDb.stepName = true := by
  induction F with
  | nil => rfl
  | leaf n v r ih =>
    simp only [Forest.allNodes] at hn ⊢
    exact ih hn
  | node n S r ihS ih =>
    simp only [Forest.allNodes, Bool.and_eq_true] at hn ⊢
    exact ⟨⟨stepName_of_good hn.1.1, ihS hn.1.2⟩, ih hn.2⟩

theorem printTree_forest {s : St (Leaf B)} {db : Db (Leaf B)} (hs : Hist s db) {F : Forest (Leaf B)}
    (hF : Spec.ConfigDb.Below db.item db.cur F) (hd : F.distinct = true)
    (hl : F.allLeaves (fun n v => goodName num n && goodLeaf pr num v) = true) (hn : F.allNodes (goodName num) = true) :
    ∀ fuel, F.size < fuel → ∃ s', printTree pr fuel s = some (true, text (treePieces pr 0 F), s') ∧ Hist s' db := by
  obtain ⟨s1, h1, h2⟩ := Spec.ConfigDb.hist_size hs
  intro fuel hf
  obtain ⟨s', a, b⟩ := print_kids (pr := pr) num F fuel 0 0 s1 db h2 (Spec.ConfigDb.part_of_below hF) hd
    (leaves_shaped hl) (nodes_step hn) hf
  exact ⟨s', by rw [printTree, h1]; exact a, b⟩

/-! ### `StandardPrinter` -/

def stdPieces (pr : Nat → B → List Char) : Forest (Leaf B) → List Piece
  | .nil => []
  | .leaf n v r => [.bare n, .blank ' ', .sign '='] ++ (valuePieces pr v ++ stdPieces pr r)
  | .node n s r => [.bare n, .blank ' ', .sign '=', .blank ' ', .sign '{'] ++ (stdPieces pr s ++ ([.sign '}'] ++ stdPieces pr r))

theorem print_std : ∀ (F : Forest (Leaf B)) (fuel i : Nat) (s : St (Leaf B)) (db : Db (Leaf B)),
    Hist s db → Spec.ConfigDb.Part db.item db.cur i F → F.distinct = true →
    F.allLeaves (fun n v => goodName num n && goodLeaf pr num v) = true →
    F.allNodes (goodName num) = true → F.size < fuel →
    ∃ s', standardPrinter pr fuel i s = some (true, text (stdPieces pr F), s') ∧ Hist s' db := by
  intro F
  induction F with
  | nil =>
    intro fuel i s db hs hp _ _ _ hf
    obtain ⟨fuel, rfl⟩ : ∃ m, fuel = m + 1 := ⟨fuel - 1, by omega⟩
    have := Spec.ConfigDb.part_nil hp
    obtain ⟨s0, e0, g0⟩ := Spec.ConfigDb.hist_size hs
    rw [standardPrinter, e0]
    simp only
    rw [if_neg (by omega)]
    exact ⟨s0, rfl, g0⟩
  | leaf n v r ih =>
    intro fuel i s db hs hp hd hl hn hf
    obtain ⟨fuel, rfl⟩ : ∃ m, fuel = m + 1 := ⟨fuel - 1, by omega⟩
    simp only [Forest.distinct, Bool.and_eq_true, decide_eq_true_eq] at hd
    simp only [Forest.allLeaves, Bool.and_eq_true] at hl
    simp only [Forest.allNodes] at hn
    simp only [Forest.size] at hf
    obtain ⟨p1, p2, p3, p4⟩ := Spec.ConfigDb.part_leaf hp hd.1
    obtain ⟨s0, e0, g0⟩ := Spec.ConfigDb.hist_size hs
    obtain ⟨s1, e1, g1⟩ := Spec.ConfigDb.hist_childName g0 p2
    obtain ⟨q1, q2⟩ := Spec.ConfigDb.stepName_path (stepName_of_good hl.1.1)
    obtain ⟨s2, e2, g2⟩ := Spec.ConfigDb.hist_not_into g1 q1 q2 p4
    obtain ⟨s3, e3, g3⟩ := Spec.ConfigDb.hist_read g2 n
    obtain ⟨s4, e4, g4⟩ := ih fuel (i + 1) s3 db g3 p3 hd.2 (by simpa using hl.2) hn (by omega)
    rw [p4] at e3
    have hv := hl.1.2
    simp only [goodLeaf, Bool.and_eq_true] at hv
    refine ⟨s4, ?_, g4⟩
    rw [standardPrinter, e0]
    simp only
    rw [if_pos p1, e1]
    simp only [e2, e3, print_value v hv.1.1, e4, Option.map_some]
    simp [stdPieces, text_append]
    simp [text, Piece.text]
  | node n S r ihS ih =>
    intro fuel i s db hs hp hd hl hn hf
    obtain ⟨fuel, rfl⟩ : ∃ m, fuel = m + 1 := ⟨fuel - 1, by omega⟩
    simp only [Forest.distinct, Bool.and_eq_true, decide_eq_true_eq] at hd
    simp only [Forest.allLeaves, Bool.and_eq_true] at hl
    simp only [Forest.allNodes, Bool.and_eq_true] at hn
    simp only [Forest.size] at hf
    obtain ⟨p1, p2, p3, p4, p5⟩ := Spec.ConfigDb.part_node hp hd.1.1
    obtain ⟨s0, e0, g0⟩ := Spec.ConfigDb.hist_size hs
    obtain ⟨s1, e1, g1⟩ := Spec.ConfigDb.hist_childName g0 p2
    obtain ⟨s3, e3, g3⟩ := Spec.ConfigDb.hist_into g1 (stepName_of_good hn.1.1) p4
    obtain ⟨s5, e5, g5⟩ := ihS fuel 0 s3 _ g3 p5 hd.1.2 hl.1 hn.1.2 (by omega)
    obtain ⟨s6, e6, g6⟩ := Spec.ConfigDb.hist_back db.item db.cur n g5
    obtain ⟨s7, e7, g7⟩ := ih fuel (i + 1) s6 db g6 p3 hd.2 hl.2 hn.2 (by omega)
    refine ⟨s7, ?_, g7⟩
    rw [standardPrinter, e0]
    simp only
    rw [if_pos p1, e1]
    simp only [e3, e5, e6, e7, Option.map_some]
    simp [stdPieces, text_append]
    simp [text, Piece.text]

theorem tokens_std {F : Forest (Leaf B)} (hl : F.allLeaves (fun n v => goodName num n && goodLeaf pr num v) = true)
    (hn : F.allNodes (goodName num) = true) (hf : F.full = true) :
    tokens num (stdPieces pr F) = (doc pr F).words.map token := by
  induction F with
  | nil => cases hf
  | leaf n v r ih =>
    simp only [Forest.allLeaves, Bool.and_eq_true] at hl
    have head : tokens num [.bare n, .blank ' ', .sign '='] = [(.string, n), (.terminal, ['='])] := by
      simp [tok_some (token_name hl.1.1), tok_sign, tok_blank, tok_nil]
    rw [stdPieces, tokens_append, tokens_append, head, tokens_value hl.1.2]
    rcases full_leaf (pr := pr) hf with ⟨rfl, e⟩ | ⟨hr, e⟩
    · rw [e]
      simp [stdPieces, tokens, Stmts.words, Stmt.words, token, Spec.ConfigDoc.castWords]
    · rw [e, ih hl.2 hn hr]
      simp [Stmts.words, Stmt.words, token, Spec.ConfigDoc.castWords]
  | node n S r ihS ih =>
    simp only [Forest.allLeaves, Bool.and_eq_true] at hl
    simp only [Forest.allNodes, Bool.and_eq_true] at hn
    have head : tokens num [.bare n, .blank ' ', .sign '=', .blank ' ', .sign '{'] =
        [(.string, n), (.terminal, ['=']), (.terminal, ['{'])] := by
      simp [tok_some (token_name hn.1.1), tok_sign, tok_blank, tok_nil]
    have tail : tokens num [.sign '}'] = [(.terminal, ['}'])] := rfl
    obtain ⟨hs, hr⟩ := full_node (pr := pr) hf
    rw [stdPieces, tokens_append, tokens_append, tokens_append, head, tail, ihS hl.1 hn.1.2 hs]
    rcases hr with ⟨rfl, e⟩ | ⟨hr, e⟩
    · rw [e]
      simp [stdPieces, tokens, Stmts.words, Stmt.words, token]
    · rw [e, ih hl.2 hn.2 hr]
      simp [Stmts.words, Stmt.words, token]

/-- What may follow a number. -/
def Ends (r : List Piece) : Prop := r = [] ∨ ∃ t, r = .sign '}' :: t

theorem value_ends {v : Leaf B} (ns : ∀ w, num w = true → w.getLast? ≠ some '/') (h : goodLeaf pr num v = true)
    (r : List Piece)
    (hr : Spec.Lexer.ok standard r = true) (he : oneNumber v = true → Ends r) :
    Spec.Lexer.ok standard (valuePieces pr v ++ r) = true := by
  have hv := h
  simp only [goodLeaf, Bool.and_eq_true] at h
  obtain ⟨⟨h1, h2⟩, _⟩ := h
  have sign : ∀ c, standard.signs.contains c = true → Closed [.sign c, .blank ' '] := fun c hc =>
    closed_append (a := [_]) (closed_sign hc) (closed_blank (by decide))
  unfold valuePieces
  rcases shape_cases h1 with ⟨d, _, _, x, hx⟩ | ⟨d, _, _, h0⟩ | ⟨d, c, _, hl⟩
  · rw [d, if_neg (by decide), if_neg (by decide)]
    rw [hx] at h2 ⊢
    rw [List.all_cons, Bool.and_eq_true] at h2
    cases x with
    | text s => exact closed_quoted h2.1 r hr
    | num b =>
      have e := he (by simp [oneNumber, d, hx, isText])
      have g := h2.1
      simp only [goodElement, writable, Bool.and_eq_true] at g
      rcases e with rfl | ⟨t, rfl⟩
      · have := g.1.1
        simp only [List.map_cons, List.map_nil, elementPiece, List.cons_append, List.nil_append, Spec.Lexer.ok,
          List.head?_nil, this, Bool.true_and, Piece.before, ns _ g.2]
        simp
      · simp only [List.map_cons, List.map_nil, elementPiece, List.cons_append, List.nil_append]
        rw [Spec.Lexer.ok, g.1.1, hr]
        rfl
  · rw [d, if_neg (by decide), if_pos rfl]
    exact closed_row h2 r hr
  · rw [d, if_pos rfl]
    refine closed_append (closed_append (sign _ (by decide)) ?_) (sign _ (by decide)) r hr
    have : ∀ l : List (List (Val B)), (∀ ys ∈ l, ys.all (goodElement pr num v.ty) = true) →
        Closed (l.flatMap (rowPieces pr v.ty)) := by
      intro l
      induction l with
      | nil => intro _; exact closed_nil
      | cons y l ih =>
        intro hl
        rw [List.flatMap_cons]
        exact closed_append (closed_row (hl y (by simp))) (ih fun ys hy => hl ys (by simp [hy]))
    exact this _ fun ys hys => all_chunks h2 ys hys

theorem last_leaf {n : Name} {v : Leaf B} {r : Forest (Leaf B)} (h : numbersLast (.leaf n v r) = true) :
    (oneNumber v = true → r = .nil) ∧ numbersLast r = true := by
  cases r with
  | nil => exact ⟨fun _ => rfl, rfl⟩
  | leaf a b c =>
    simp only [numbersLast, Bool.and_eq_true, Bool.not_eq_true'] at h ⊢
    exact ⟨fun e => (by rw [h.1] at e; exact Bool.noConfusion e), by simpa [numbersLast] using h.2⟩
  | node a b c =>
    simp only [numbersLast, Bool.and_eq_true, Bool.not_eq_true'] at h ⊢
    exact ⟨fun e => (by rw [h.1] at e; exact Bool.noConfusion e), h.2⟩

theorem std_pieces_ok {F : Forest (Leaf B)} (hl : F.allLeaves (fun n v => goodName num n && goodLeaf pr num v) = true)
    (hn : F.allNodes (goodName num) = true) (hk : numbersLast F = true)
    (ns : ∀ w, num w = true → w.getLast? ≠ some '/') (r : List Piece)
    (hr : Spec.Lexer.ok standard r = true) (he : Ends r) : Spec.Lexer.ok standard (stdPieces pr F ++ r) = true := by
  have name : ∀ n, goodName num n = true → Closed [.bare n, .blank ' '] := by
    intro n h
    simp only [goodName, Bool.and_eq_true] at h
    exact closed_bare h.1.2 (by decide)
  have eq : Closed [.sign '='] := closed_sign (by decide)
  have o : Closed [.blank ' ', .sign '{'] := closed_append (a := [_]) (closed_blank (by decide)) (closed_sign (by decide))
  have c : Closed [.sign '}'] := closed_sign (by decide)
  induction F generalizing r with
  | nil => exact hr
  | leaf n v R ih =>
    simp only [Forest.allLeaves, Bool.and_eq_true] at hl
    obtain ⟨k1, k2⟩ := last_leaf hk
    rw [stdPieces, List.append_assoc, List.append_assoc]
    refine closed_append (a := [_, _]) (name n hl.1.1) eq _ (value_ends ns hl.1.2 _ (ih hl.2 hn k2 r hr he) ?_)
    intro h1
    rw [k1 h1]
    exact he
  | node n S R ihS ih =>
    simp only [Forest.allLeaves, Bool.and_eq_true] at hl
    simp only [Forest.allNodes, Bool.and_eq_true] at hn
    simp only [numbersLast, Bool.and_eq_true] at hk
    rw [stdPieces, List.append_assoc, List.append_assoc, List.append_assoc]
    refine closed_append (a := [_, _]) (name n hn.1.1) (closed_append (a := [_]) eq o) _ ?_
    exact ihS hl.1 hn.1.2 hk.1 _ (c _ (ih hl.2 hn.2 hk.2 r hr he)) (.inr ⟨_, rfl⟩)

theorem std_says {F : Forest (Leaf B)} (hl : F.allLeaves (fun n v => goodName num n && goodLeaf pr num v) = true)
    (hn : F.allNodes (goodName num) = true) (hf : F.full = true) (hk : numbersLast F = true)
    (ns : ∀ w, num w = true → w.getLast? ≠ some '/') :
    Says num (stdPieces pr F) (doc pr F).words := by
  refine ⟨?_, tokens_std hl hn hf⟩
  have := std_pieces_ok hl hn hk ns [] rfl (.inl rfl)
  rwa [List.append_nil] at this

end Verif.Config
