import Verif.Proof.JsonPrint
/-! ## Trees printed in the JSON language -/
set_option linter.unusedSimpArgs false
namespace Verif.Json
open Verif.Config (Leaf Val Conv lit mkData doc tok_nil tok_blank tok_sign tok_some tokens_append)
open Verif.ConfigDb (Op Out St Name step)
open Verif.Spec.ConfigDb (Db Item Forest)
open Verif.Spec.ConfigPrint (shaped plainText isText elementText asText)
open Verif.Spec.ConfigDoc (Lit Data Stmt Stmts nameOk)
open Verif.Spec.JsonDoc
open Verif.Spec.JsonText (token writable)
open Verif.Spec.JsonPrint
open Verif.Spec.Lexer (Piece QChar text tokens json)

variable {B : Type} {pr : Nat → B → List Char} {num : List Char → Bool}

/-- The number of blocks of the list `a`, from the number `k`, at the head of a forest. -/
def runLen (a : Name) : Nat → Forest (Leaf B) → Nat
  | _, .nil => 0
  | _, .leaf _ _ _ => 0
  | k, .node n _ r => if n = blockName a k then runLen a (k + 1) r + 1 else 0

/-- A node that is a block of a list. -/
def item (c : Bool) (n : Name) : Bool := c && n.contains '['

def quotedName (n : Name) : Piece := .quoted (n.map .raw)

def comma (first : Bool) : List Piece := if first then [] else [.blank ',']

/-- What is printed for the children of a node. -/
def pieces (pr : Nat → B → List Char) (c : Bool) : Bool → Option (Name × Nat) → Forest (Leaf B) → List Piece
  | _, _, .nil => []
  | first, _, .leaf n v r =>
    comma first ++ ([quotedName n, .sign ':', .blank ' '] ++ (jValue pr v ++ pieces pr c false none r))
  | first, prev, .node n s r =>
    if item c n then
      comma first ++ ((if index prev (before n) = 0 then
          [quotedName (before n), .blank ' ', .sign ':', .blank ' ', .sign '['] else []) ++ ([.sign '{'] ++
        (pieces pr c true none s ++ ([.sign '}'] ++ ((if runLen (before n) (index prev (before n) + 1) r = 0 then [.sign ']'] else []) ++
          pieces pr c false (some (before n, index prev (before n) + 1)) r)))))
    else comma first ++ ([quotedName n, .sign ':', .blank ' ', .sign '{'] ++ (pieces pr c true none s ++ ([.sign '}'] ++
      pieces pr c false none r)))

/-! ### Documents as lists of statements -/

def noStmt : Stmt := .leaf [] none (.scalar ⟨false, []⟩)

def ofL : List Stmt → Stmts
  | [] => .one noStmt
  | [s] => .one s
  | s :: t :: l => .more s (ofL (t :: l))

def toL : Stmts → List Stmt
  | .one s => [s]
  | .more s ss => s :: toL ss

def docL (pr : Nat → B → List Char) : Forest (Leaf B) → List Stmt
  | .nil => []
  | .leaf n v r => .leaf n none (mkData pr v) :: docL pr r
  | .node n s r => .block n (ofL (docL pr s)) :: docL pr r

theorem ofL_more (s : Stmt) {l : List Stmt} (h : l ≠ []) : ofL (s :: l) = .more s (ofL l) := by
  cases l with
  | nil => exact absurd rfl h
  | cons a l => rfl

theorem doc_ofL (F : Forest (Leaf B)) : doc pr F = ofL (docL pr F) := by
  induction F with
  | nil => rfl
  | leaf n v r ih =>
    cases r with
    | nil => rfl
    | leaf a b c => rw [doc, ih] <;> first | exact (ofL_more _ (by simp [docL])).symm | (intro h; cases h)
    | node a b c => rw [doc, ih] <;> first | exact (ofL_more _ (by simp [docL])).symm | (intro h; cases h)
  | node n s r ihs ih =>
    cases r with
    | nil => rw [doc, ihs]; rfl
    | leaf a b c => rw [doc, ih, ihs] <;> first | exact (ofL_more _ (by simp [docL])).symm | (intro h; cases h)
    | node a b c => rw [doc, ih, ihs] <;> first | exact (ofL_more _ (by simp [docL])).symm | (intro h; cases h)

theorem ofL_toL (d : Stmts) : ofL (toL d) = d := by
  match d with
  | .one s => rfl
  | .more s ss =>
    rw [toL, ofL_more _ (by cases ss <;> simp [toL]), ofL_toL ss]

theorem toL_ne (d : Stmts) : toL d ≠ [] := by cases d <;> simp [toL]

theorem toL_cat (a b : Stmts) : toL (cat a b) = toL a ++ toL b := by
  match a with
  | .one s => rfl
  | .more s ss => rw [cat, toL, toL, toL_cat ss b]; rfl

/-! ### Documents of the JSON language as lists -/

def mk : List JStmt → JStmts
  | [] => .one (.leaf [] none (.scalar ⟨false, []⟩))
  | [s] => .one s
  | s :: t :: l => .more s (mk (t :: l))

def mkBlocks : JStmts → List JStmts → JBlocks
  | b, [] => .one b
  | b, c :: l => .more b (mkBlocks c l)

/-- The bodies of the blocks that go on with the list before, and the statements after them. -/
def build (pr : Nat → B → List Char) (c : Bool) : Option (Name × Nat) → Forest (Leaf B) → List JStmts × List JStmt
  | _, .nil => ([], [])
  | _, .leaf n v r => ([], .leaf n none (mkData pr v) :: (build pr c none r).2)
  | prev, .node n s r =>
    if item c n then
      if index prev (before n) = 0 then
        ([], .array (before n) (mkBlocks (mk (build pr c none s).2)
          (build pr c (some (before n, index prev (before n) + 1)) r).1) ::
          (build pr c (some (before n, index prev (before n) + 1)) r).2)
      else (mk (build pr c none s).2 :: (build pr c (some (before n, index prev (before n) + 1)) r).1,
        (build pr c (some (before n, index prev (before n) + 1)) r).2)
    else ([], .block n (mk (build pr c none s).2) :: (build pr c none r).2)

theorem plain_mk : ∀ l : List JStmt, l ≠ [] → toL (mk l).plain = l.flatMap fun s => toL s.plain
  | [], h => absurd rfl h
  | [s], _ => by simp [mk, JStmts.plain]
  | s :: t :: l, _ => by
    rw [mk, JStmts.plain, toL_cat, plain_mk (t :: l) (by simp)]; rfl

/-- The blocks of a list, with their numbers. -/
def blocksL (a : Name) : Nat → List JStmts → List Stmt
  | _, [] => []
  | k, b :: l => .block (blockName a k) b.plain :: blocksL a (k + 1) l

theorem plain_blocks (a : Name) : ∀ (l : List JStmts) (b : JStmts) (k : Nat),
    toL ((mkBlocks b l).plain a k) = blocksL a k (b :: l)
  | [], b, k => by simp [mkBlocks, JBlocks.plain, toL, blocksL]
  | c :: l, b, k => by
    rw [mkBlocks, JBlocks.plain, toL, plain_blocks a l c (k + 1)]; rfl

theorem index_some {prev : Option (Name × Nat)} {a : Name} (h : index prev a ≠ 0) : prev = some (a, index prev a) := by
  cases prev with
  | none => exact absurd rfl h
  | some q =>
    obtain ⟨b, k⟩ := q
    simp only [index] at h ⊢
    split at h
    · rename_i e; simp [e]
    · exact absurd rfl h

theorem plain_mk_ofL {l : List JStmt} {F : Forest (Leaf B)} (hf : F.full = true) (h : l.flatMap (fun s => toL s.plain) = docL pr F) :
    (mk l).plain = ofL (docL pr F) := by
  have : l ≠ [] := by
    rintro rfl
    cases F with
    | nil => cases hf
    | leaf n v r => simp [docL] at h
    | node n s r => simp [docL] at h
  rw [← ofL_toL (mk l).plain, plain_mk l this, h]

/-- The blocks that go on with the list before. -/
def tailBlocks (prev : Option (Name × Nat)) (l : List JStmts) : List Stmt :=
  match prev with
  | none => []
  | some (a, k) => blocksL a k l

theorem build_none {prev : Option (Name × Nat)} (h : ∀ a, index prev a = 0) (c : Bool) (F : Forest (Leaf B)) :
    (build pr c prev F).1 = [] := by
  cases F with
  | nil => rfl
  | leaf n v r => rfl
  | node n s r =>
    rw [build]
    split
    · rw [if_pos (h _)]
    · rfl

theorem tail_prev {prev : Option (Name × Nat)} {l : List JStmts} {a : Name} {k : Nat} (h : prev = some (a, k)) :
    tailBlocks prev l = blocksL a k l := by rw [h]; rfl

theorem full_rest {n : Name} {s r : Forest (Leaf B)} (h : (Forest.node n s r).full = true) :
    s.full = true ∧ (r = .nil ∨ r.full = true) := by
  cases r with
  | nil => exact ⟨h, .inl rfl⟩
  | leaf a b c =>
    simp only [Forest.full, Bool.and_eq_true] at h
    exact ⟨h.1, .inr h.2⟩
  | node a b c =>
    simp only [Forest.full, Bool.and_eq_true] at h
    exact ⟨h.1, .inr (by simpa [Forest.full] using h.2)⟩

theorem full_rest_leaf {n : Name} {v : Leaf B} {r : Forest (Leaf B)} (h : (Forest.leaf n v r).full = true) :
    r = .nil ∨ r.full = true := by
  cases r with
  | nil => exact .inl rfl
  | leaf a b c => exact .inr h
  | node a b c => exact .inr h

/-- The condition on lists, when they are collapsed. -/
def lists (c inside : Bool) (prev : Option (Name × Nat)) (F : Forest (Leaf B)) : Prop := c = true → listed inside prev F = true

theorem lists_node {c inside : Bool} {prev : Option (Name × Nat)} {n : Name} {s r : Forest (Leaf B)}
    (h : lists c inside prev (.node n s r)) :
    (item c n = true ∧ listName inside (before n) = true ∧ n = blockName (before n) (index prev (before n)) ∧
      lists c true none s ∧ lists c inside (some (before n, index prev (before n) + 1)) r) ∨
    (item c n = false ∧ lists c inside none s ∧ lists c inside none r) := by
  cases c with
  | false => exact .inr ⟨rfl, fun e => (Bool.noConfusion e), fun e => (Bool.noConfusion e)⟩
  | true =>
    have := h rfl
    rw [listed] at this
    by_cases hb : n.contains '[' = true
    · rw [if_pos hb] at this
      simp only [Bool.and_eq_true, decide_eq_true_eq] at this
      exact .inl ⟨by simp [item]; simpa using hb, this.1.1.1, this.1.1.2, fun _ => this.1.2, fun _ => this.2⟩
    · rw [if_neg hb] at this
      simp only [Bool.and_eq_true] at this
      exact .inr ⟨by simp [item]; simpa using hb, fun _ => this.1, fun _ => this.2⟩

theorem lists_leaf {c inside : Bool} {prev : Option (Name × Nat)} {n : Name} {v : Leaf B} {r : Forest (Leaf B)}
    (h : lists c inside prev (.leaf n v r)) : lists c inside none r := by
  intro e
  have := h e
  rwa [listed] at this

/-- The configuration that the document stands for is the tree. -/
theorem build_plain (c : Bool) (F : Forest (Leaf B)) : ∀ (inside : Bool) (prev : Option (Name × Nat)), lists c inside prev F →
    (F = .nil ∨ F.full = true) →
    tailBlocks prev (build pr c prev F).1 ++ (build pr c prev F).2.flatMap (fun s => toL s.plain) = docL pr F := by
  induction F with
  | nil =>
    intro inside prev _ _
    rcases prev with _ | ⟨a, k⟩ <;> rfl
  | leaf n v r ih =>
    intro inside prev hl hf
    have := ih inside none (lists_leaf hl) (full_rest_leaf (hf.resolve_left (by simp)))
    simp only [build, tailBlocks, List.flatMap_cons, docL, JStmt.plain, toL, List.nil_append] at this ⊢
    rw [this]
    rcases prev with _ | ⟨a, k⟩ <;> rfl
  | node n s r ihs ih =>
    intro inside prev hl hf
    obtain ⟨fs, fr⟩ := full_rest (hf.resolve_left (by simp))
    rcases lists_node hl with ⟨h1, h2, h3, h4, h5⟩ | ⟨h1, h4, h5⟩
    · have is := ihs true none h4 (.inr fs)
      have ir := ih inside _ h5 fr
      simp only [tailBlocks, List.nil_append] at is ir
      have hb := plain_mk_ofL fs is
      rw [build, if_pos h1]
      by_cases h0 : index prev (before n) = 0
      · rw [if_pos h0]
        rw [h0] at h3 ir ⊢
        simp only [List.flatMap_cons, JStmt.plain, plain_blocks, blocksL, docL, hb, ← h3]
        rw [List.cons_append, ir]
        rcases prev with _ | ⟨a, k⟩ <;> rfl
      · rw [if_neg h0, tail_prev (index_some h0)]
        simp only [blocksL, docL, hb, ← h3, List.cons_append, ir]
    · have is := ihs inside none h4 (.inr fs)
      have ir := ih inside none h5 fr
      simp only [tailBlocks, List.nil_append] at is ir
      rw [build, if_neg (by simp [h1])]
      simp only [List.flatMap_cons, JStmt.plain, toL, docL, plain_mk_ofL fs is, ir]
      rcases prev with _ | ⟨a, k⟩ <;> rfl

/-! ### Words -/

theorem words_mk : ∀ l : List JStmt, l ≠ [] → (mk l).words = l.flatMap JStmt.words
  | [], h => absurd rfl h
  | [s], _ => by simp [mk, JStmts.words]
  | s :: t :: l, _ => by rw [mk, JStmts.words, words_mk (t :: l) (by simp)]; rfl

def blockWords (b : JStmts) : List JWord := .lbr :: (b.words ++ [.rbr])

theorem words_blocks : ∀ (l : List JStmts) (b : JStmts), (mkBlocks b l).words = (b :: l).flatMap blockWords
  | [], b => by simp [mkBlocks, JBlocks.words, blockWords]
  | c :: l, b => by
    rw [mkBlocks, JBlocks.words, words_blocks l c]
    simp [blockWords]

theorem token_quoted (n : Name) : (quotedName n).token num = some (.string, n) := by
  simp [quotedName, Piece.token, Config.raw_value]

theorem build_run (c : Bool) (F : Forest (Leaf B)) : ∀ (inside : Bool) (a : Name) (k : Nat), 0 < k → lists c inside (some (a, k)) F →
    c = true → a.contains '[' = false → (build pr c (some (a, k)) F).1.length = runLen a k F := by
  induction F with
  | nil => intros; rfl
  | leaf n v r ih => intros; rfl
  | node n s r ihs ih =>
    intro inside a k hk hl hc ha
    have hbr : (blockName a k).contains '[' = true := by simp [blockName]
    have hbe : before (blockName a k) = a := by
      simp only [before, blockName]
      have : ∀ c ∈ a, (decide (c ≠ '[')) = true := by
        intro c hc
        simp only [ne_eq, decide_eq_true_eq]
        rintro rfl
        simp only [List.contains_eq_mem, decide_eq_false_iff_not] at ha
        exact ha hc
      rw [List.append_assoc, List.append_assoc, List.takeWhile_append_of_pos this]
      simp
    rcases lists_node hl with ⟨h1, h2, h3, h4, h5⟩ | ⟨h1, h4, h5⟩
    · rw [build, if_pos h1, runLen]
      by_cases h0 : index (some (a, k)) (before n) = 0
      · have : n ≠ blockName a k := by
          rintro rfl
          rw [hbe] at h0
          simp [index] at h0
          omega
        rw [if_pos h0, if_neg this]
        rfl
      · have e := index_some h0
        simp only [Option.some.injEq, Prod.mk.injEq] at e
        rw [← e.2, ← e.1] at h3
        rw [if_neg h0, if_pos h3]
        simp only [List.length_cons]
        rw [← e.2, ← e.1] at h5 ⊢
        rw [ih inside a (k + 1) (by omega) h5 hc ha]
    · rw [build, if_neg (by simp [h1]), runLen, if_neg]
      · rfl
      · rintro rfl
        simp [item, hc] at h1
        simp [blockName] at h1

theorem before_free (n : Name) : (before n).contains '[' = false := by
  simp only [List.contains_eq_mem, decide_eq_false_iff_not, before]
  intro h
  have : ∀ (l : List Char) (c : Char), c ∈ l.takeWhile (· ≠ '[') → c ≠ '[' := by
    intro l
    induction l with
    | nil => intro c hc; cases hc
    | cons d l ih =>
      intro c hc
      rw [List.takeWhile_cons] at hc
      split at hc
      · rename_i hd
        rcases List.mem_cons.mp hc with rfl | hc
        · simpa using hd
        · exact ih c hc
      · cases hc
  exact this n _ h rfl

theorem mk_ne {c inside : Bool} {F : Forest (Leaf B)} (hf : F.full = true) (hl : lists c inside none F) :
    (build pr c none F).2 ≠ [] := by
  intro e
  have := build_plain (pr := pr) c F inside none hl (.inr hf)
  rw [e] at this
  cases F with
  | nil => cases hf
  | leaf n v r => simp [tailBlocks, docL] at this
  | node n s r => simp [tailBlocks, docL] at this

theorem item_true {c : Bool} {n : Name} (h : item c n = true) : c = true := by
  simp only [item, Bool.and_eq_true] at h
  exact h.1

def ender (prev : Option (Name × Nat)) (F : Forest (Leaf B)) : List JWord :=
  match prev with
  | none => []
  | some (a, k) => if k ≠ 0 ∧ runLen a k F ≠ 0 then [.rbk] else []

/-- The words of the document are those of the printed text. -/
theorem tokens_pieces (c : Bool) (F : Forest (Leaf B)) : ∀ (inside first : Bool) (prev : Option (Name × Nat)),
    lists c inside prev F → (∀ a k, prev = some (a, k) → 0 < k ∧ c = true ∧ a.contains '[' = false) →
    F.allLeaves (fun n v => goodName n && goodLeaf pr num v) = true → (F = .nil ∨ F.full = true) →
    tokens num (pieces pr c first prev F) =
      ((build pr c prev F).1.flatMap blockWords ++ ender prev F ++ (build pr c prev F).2.flatMap JStmt.words).map token := by
  have cm : ∀ first, tokens num (comma first) = [] := by intro first; cases first <;> rfl
  have endLeaf : ∀ prev (n : Name) (v : Leaf B) (r : Forest (Leaf B)), ender prev (.leaf n v r) = [] := by
    intro prev n v r
    rcases prev with _ | ⟨a, k⟩
    · rfl
    · simp [ender, runLen]
  induction F with
  | nil =>
    intro inside first prev _ _ _ _
    rcases prev with _ | ⟨a, k⟩
    · rfl
    · simp [pieces, tokens, build, ender, runLen]
  | leaf n v r ih =>
    intro inside first prev hl _ hg hf
    simp only [Forest.allLeaves, Bool.and_eq_true] at hg
    have h := ih inside false none (lists_leaf hl) (by intro a k h; cases h) hg.2 (full_rest_leaf (hf.resolve_left (by simp)))
    have hd : tokens num [quotedName n, .sign ':', .blank ' '] = [(.string, n), (.terminal, [':'])] := by
      simp [tok_some (token_quoted n), tok_sign, tok_blank, tok_nil]
    rw [pieces, tokens_append, tokens_append, tokens_append, cm, hd, tokens_value hg.1.2, h, endLeaf]
    simp [build, build_none (prev := none) (fun _ => rfl), ender, JStmt.words, castJ, token]
  | node n s r ihs ih =>
    intro inside first prev hl hp hg hf
    simp only [Forest.allLeaves, Bool.and_eq_true] at hg
    obtain ⟨fs, fr⟩ := full_rest (hf.resolve_left (by simp))
    have hd0 : tokens num [.sign '{'] = [(.terminal, ['{'])] := rfl
    have hd1 : tokens num [.sign '}'] = [(.terminal, ['}'])] := rfl
    rcases lists_node hl with ⟨h1, h2, h3, h4, h5⟩ | ⟨h1, h4, h5⟩
    · have is := ihs true true none h4 (by intro a k h; cases h) hg.1 (.inr fs)
      have ir := ih inside false (some (before n, index prev (before n) + 1)) h5 (by
        intro a k h
        simp only [Option.some.injEq, Prod.mk.injEq] at h
        obtain ⟨rfl, rfl⟩ := h
        exact ⟨by omega, item_true h1, before_free n⟩) hg.2 fr
      rw [build_none (fun _ => rfl)] at is
      simp only [List.flatMap_nil, List.nil_append, ender] at is
      rw [← words_mk _ (mk_ne fs h4)] at is
      have hend : tokens num (if runLen (before n) (index prev (before n) + 1) r = 0 then [.sign ']'] else []) =
          (if runLen (before n) (index prev (before n) + 1) r = 0 then [JWord.rbk] else []).map token := by
        split <;> rfl
      have hrun := build_run (pr := pr) c r inside (before n) (index prev (before n) + 1) (by omega) h5 (item_true h1)
        (before_free n)
      rw [pieces, if_pos h1, build, if_pos h1]
      by_cases h0 : index prev (before n) = 0
      · have hend0 : ender prev (.node n s r) = [] := by
          rcases prev with _ | ⟨a, k⟩
          · rfl
          · obtain ⟨hk, _, hb⟩ := hp a k rfl
            have : n ≠ blockName a k := by
              intro e
              have hba : before n = a := by
                rw [e]
                simp only [before, blockName]
                have : ∀ c ∈ a, (decide (c ≠ '[')) = true := by
                  intro c hc
                  simp only [ne_eq, decide_eq_true_eq]
                  rintro rfl
                  simp only [List.contains_eq_mem, decide_eq_false_iff_not] at hb
                  exact hb hc
                rw [List.append_assoc, List.append_assoc, List.takeWhile_append_of_pos this]
                simp
              rw [hba] at h0
              simp [index] at h0
              omega
            simp [ender, runLen, this]
        have hd2 : tokens num [quotedName (before n), .blank ' ', .sign ':', .blank ' ', .sign '['] =
            [(.string, before n), (.terminal, [':']), (.terminal, ['['])] := by
          simp [tok_some (token_quoted (before n)), tok_sign, tok_blank, tok_nil]
        simp only [if_pos h0, tokens_append, cm, hd2, hd0, hd1, is, ir, hend, hend0]
        simp only [h0] at hrun ⊢
        by_cases hr : runLen (before n) 1 r = 0
        · have : (build pr c (some (before n, 1)) r).1 = [] := by
            rw [← List.length_eq_zero_iff]; exact hrun.trans hr
          simp [hr, this, ender, JStmt.words, words_blocks, blockWords, token]
        · simp [hr, ender, JStmt.words, words_blocks, blockWords, token]
      · have e := index_some h0
        have hend0 : ender prev (.node n s r) = [.rbk] := by
          rw [e]
          simp only [ender]
          rw [if_pos ⟨h0, by rw [runLen, if_pos h3]; simp⟩]
        simp only [if_neg h0, tokens_append, cm, hd0, hd1, is, ir, hend, hend0]
        by_cases hr : runLen (before n) (index prev (before n) + 1) r = 0
        · have : (build pr c (some (before n, index prev (before n) + 1)) r).1 = [] := by
            rw [← List.length_eq_zero_iff]; exact hrun.trans hr
          simp [hr, this, ender, blockWords, token, tokens]
        · simp [hr, ender, blockWords, token, tokens]
    · have is := ihs inside true none h4 (by intro a k h; cases h) hg.1 (.inr fs)
      have ir := ih inside false none h5 (by intro a k h; cases h) hg.2 fr
      rw [build_none (fun _ => rfl)] at is ir
      simp only [List.flatMap_nil, List.nil_append, ender] at is ir
      rw [← words_mk _ (mk_ne fs h4)] at is
      have hd2 : tokens num [quotedName n, .sign ':', .blank ' ', .sign '{'] =
          [(.string, n), (.terminal, [':']), (.terminal, ['{'])] := by
        simp [tok_some (token_quoted n), tok_sign, tok_blank, tok_nil]
      have hend0 : ender prev (.node n s r) = [] := by
        rcases prev with _ | ⟨a, k⟩
        · rfl
        · obtain ⟨hk, hc, hb⟩ := hp a k rfl
          have : n ≠ blockName a k := by
            rintro rfl
            simp [item, hc] at h1
            simp [blockName] at h1
          simp [ender, runLen, this]
      rw [pieces, if_neg (by simp [h1]), build, if_neg (by simp [h1])]
      simp only [tokens_append, cm, hd2, hd1, is, ir, hend0]
      simp [JStmt.words, token]

/-! ### The pieces are well formed -/

theorem pieces_sep (c : Bool) (prev : Option (Name × Nat)) (F : Forest (Leaf B)) (r : List Piece) (hr : Sep r) :
    Sep (pieces pr c false prev F ++ r) := by
  cases F with
  | nil => exact hr
  | leaf n v R => exact ⟨.blank ',', _, rfl, .inl ⟨_, rfl⟩⟩
  | node n s R =>
    rw [pieces]
    split
    · exact ⟨.blank ',', _, rfl, .inl ⟨_, rfl⟩⟩
    · exact ⟨.blank ',', _, rfl, .inl ⟨_, rfl⟩⟩

theorem plain_of_good {n : Name} (h : goodName n = true) : plainText n = true := by
  simp only [goodName, Bool.and_eq_true] at h
  exact h.2

theorem plain_before {n : Name} (h : plainText n = true) : plainText (before n) = true := by
  simp only [plainText, List.all_eq_true] at h ⊢
  intro c hc
  exact h c (List.takeWhile_subset _ hc)

theorem ok_pieces (c : Bool) (F : Forest (Leaf B)) : ∀ (first : Bool) (prev : Option (Name × Nat)) (r : List Piece),
    F.allLeaves (fun n v => goodName n && goodLeaf pr num v) = true → F.allNodes goodName = true →
    Spec.Lexer.ok json r = true → Sep r → Spec.Lexer.ok json (pieces pr c first prev F ++ r) = true := by
  have cm : ∀ first, Closed (comma first) := by
    intro first
    cases first
    · exact closed_blank (by decide)
    · exact closed_nil
  have ob : Closed [.sign '{'] := closed_sign (by decide)
  have cb : Closed [.sign '}'] := closed_sign (by decide)
  have oq : ∀ n, plainText n = true → Closed [quotedName n] := fun n h => closed_quoted h
  induction F with
  | nil => intro first prev r _ _ hr _; exact hr
  | leaf n v R ih =>
    intro first prev r hl hn hr hs
    simp only [Forest.allLeaves, Bool.and_eq_true] at hl
    simp only [Forest.allNodes] at hn
    rw [pieces, List.append_assoc, List.append_assoc, List.append_assoc]
    refine cm first _ (closed_cons (oq n (plain_of_good hl.1.1)) (closed_cons (closed_sign (by decide)) (closed_blank (by decide))) _ ?_)
    exact ok_value hl.1.2 (ih false none r hl.2 hn hr hs) (pieces_sep c none R r hs)
  | node n s R ihs ih =>
    intro first prev r hl hn hr hs
    simp only [Forest.allLeaves, Bool.and_eq_true] at hl
    simp only [Forest.allNodes, Bool.and_eq_true] at hn
    have hq := plain_of_good hn.1.1
    rw [pieces]
    split
    · have start : Closed (if index prev (before n) = 0 then
          [quotedName (before n), .blank ' ', .sign ':', .blank ' ', .sign '['] else []) := by
        split
        · exact closed_cons (oq _ (plain_before hq)) (closed_cons (closed_blank (by decide)) (closed_cons (closed_sign (by decide))
            (closed_cons (closed_blank (by decide)) (closed_sign (by decide)))))
        · exact closed_nil
      have stop : Closed (if runLen (before n) (index prev (before n) + 1) R = 0 then [.sign ']'] else []) := by
        split
        · exact closed_sign (by decide)
        · exact closed_nil
      simp only [List.append_assoc]
      refine cm first _ (start _ (ob _ (ihs true none _ hl.1 hn.1.2 (cb _ (stop _ (ih _ _ r hl.2 hn.2 hr hs))) ?_)))
      exact ⟨_, _, rfl, .inr ⟨_, rfl⟩⟩
    · simp only [List.append_assoc]
      refine cm first _ (closed_cons (oq n hq) (closed_cons (closed_sign (by decide)) (closed_cons (closed_blank (by decide)) ob)) _
        (ihs true none _ hl.1 hn.1.2 (cb _ (ih _ _ r hl.2 hn.2 hr hs)) ?_))
      exact ⟨_, _, rfl, .inr ⟨_, rfl⟩⟩

/-! ### Depth and lists of the document -/

theorem mk_depth {d : Nat} : ∀ l : List JStmt, (∀ s ∈ l, s.depth ≤ d) → (mk l).depth ≤ d
  | [], _ => Nat.zero_le _
  | [s], h => by rw [mk, JStmts.depth]; exact h s (by simp)
  | s :: t :: l, h => by
    rw [mk, JStmts.depth]
    have := mk_depth (t :: l) fun x hx => h x (List.mem_cons_of_mem _ hx)
    have := h s (by simp)
    omega

theorem blocks_depth {d : Nat} : ∀ (l : List JStmts) (b : JStmts), (∀ x ∈ b :: l, x.depth ≤ d) → (mkBlocks b l).depth ≤ d
  | [], b, h => by rw [mkBlocks, JBlocks.depth]; exact h b (by simp)
  | c :: l, b, h => by
    rw [mkBlocks, JBlocks.depth]
    have := blocks_depth l c fun x hx => h x (List.mem_cons_of_mem _ hx)
    have := h b (by simp)
    omega

theorem build_depth (c : Bool) (F : Forest (Leaf B)) : ∀ prev,
    (∀ b ∈ (build pr c prev F).1, b.depth + 2 ≤ depth c F) ∧ (∀ s ∈ (build pr c prev F).2, s.depth ≤ depth c F) := by
  induction F with
  | nil => intro prev; constructor <;> (intro x hx; cases hx)
  | leaf n v r ih =>
    intro prev
    refine ⟨fun x hx => (by cases hx), ?_⟩
    intro s hs
    rw [build] at hs
    rcases List.mem_cons.mp hs with rfl | hs
    · exact Nat.zero_le _
    · exact (ih none).2 s hs
  | node n s r ihs ih =>
    intro prev
    have hm := mk_depth _ (ihs none).2
    rw [build]
    by_cases h1 : item c n = true
    · rw [if_pos h1]
      have hd : depth c (.node n s r) = max (depth c s + 2) (depth c r) := by
        have : (c && n.contains '[') = true := h1
        rw [depth, this]
        rfl
      rw [hd]
      obtain ⟨i1, i2⟩ := ih (some (before n, index prev (before n) + 1))
      split
      · refine ⟨fun x hx => (by cases hx), ?_⟩
        intro x hx
        rcases List.mem_cons.mp hx with rfl | hx
        · rw [JStmt.depth]
          have : (mkBlocks (mk (build pr c none s).2) (build pr c (some (before n, index prev (before n) + 1)) r).1).depth ≤
              max (depth c s) (depth c r - 2) := by
            apply blocks_depth
            intro x hx
            rcases List.mem_cons.mp hx with rfl | hx
            · omega
            · have := i1 x hx; omega
          by_cases h2 : 2 ≤ depth c r
          · omega
          · omega
        · have := i2 x hx; omega
      · refine ⟨?_, fun x hx => by have := i2 x hx; omega⟩
        intro x hx
        rcases List.mem_cons.mp hx with rfl | hx
        · omega
        · have := i1 x hx; omega
    · rw [if_neg h1]
      have hd : depth c (.node n s r) = max (depth c s + 1) (depth c r) := by
        have : (c && n.contains '[') = false := by simpa [item] using h1
        rw [depth, this]
        rfl
      rw [hd]
      refine ⟨fun x hx => (by cases hx), ?_⟩
      intro x hx
      rcases List.mem_cons.mp hx with rfl | hx
      · rw [JStmt.depth]; omega
      · have := (ih none).2 x hx; omega

theorem mk_lists {i : Bool} : ∀ l : List JStmt, (∀ s ∈ l, s.listsOk i = true) → (mk l).listsOk i = true
  | [], _ => by simp [mk, JStmts.listsOk, JStmt.listsOk]
  | [s], h => by rw [mk, JStmts.listsOk]; exact h s (by simp)
  | s :: t :: l, h => by
    rw [mk, JStmts.listsOk, mk_lists (t :: l) fun x hx => h x (List.mem_cons_of_mem _ hx), h s (by simp)]
    rfl

theorem blocks_lists : ∀ (l : List JStmts) (b : JStmts), (∀ x ∈ b :: l, x.listsOk true = true) → (mkBlocks b l).listsOk = true
  | [], b, h => by rw [mkBlocks, JBlocks.listsOk]; exact h b (by simp)
  | c :: l, b, h => by
    rw [mkBlocks, JBlocks.listsOk, blocks_lists l c fun x hx => h x (List.mem_cons_of_mem _ hx), h b (by simp)]
    rfl

theorem blocks_count : ∀ (l : List JStmts) (b : JStmts), (mkBlocks b l).count = l.length + 1
  | [], b => rfl
  | c :: l, b => by rw [mkBlocks, JBlocks.count, blocks_count l c]; rfl

theorem build_length (c : Bool) (F : Forest (Leaf B)) : ∀ prev, (build pr c prev F).1.length ≤ F.names.length := by
  induction F with
  | nil => intro prev; exact Nat.le_refl _
  | leaf n v r ih => intro prev; exact Nat.zero_le _
  | node n s r ihs ih =>
    intro prev
    rw [build]
    split
    · split
      · exact Nat.zero_le _
      · simp only [List.length_cons, Forest.names]
        have := ih (some (before n, index prev (before n) + 1))
        omega
    · exact Nat.zero_le _

theorem build_lists (c : Bool) (F : Forest (Leaf B)) : ∀ (inside : Bool) prev, lists c inside prev F → narrow F = true →
    (∀ b ∈ (build pr c prev F).1, b.listsOk true = true) ∧ (∀ s ∈ (build pr c prev F).2, s.listsOk inside = true) := by
  induction F with
  | nil => intro inside prev _ _; constructor <;> (intro x hx; cases hx)
  | leaf n v r ih =>
    intro inside prev hl hw
    simp only [narrow, Bool.and_eq_true] at hw
    refine ⟨fun x hx => (by cases hx), ?_⟩
    intro s hs
    rw [build] at hs
    rcases List.mem_cons.mp hs with rfl | hs
    · rw [JStmt.listsOk]
    · exact (ih inside none (lists_leaf hl) hw.2).2 s hs
  | node n s r ihs ih =>
    intro inside prev hl hw
    simp only [narrow, Bool.and_eq_true, decide_eq_true_eq] at hw
    rw [build]
    rcases lists_node hl with ⟨h1, h2, h3, h4, h5⟩ | ⟨h1, h4, h5⟩
    · rw [if_pos h1]
      have hm := mk_lists _ (ihs true none h4 hw.1.2).2
      obtain ⟨i1, i2⟩ := ih inside _ h5 hw.2
      split
      · refine ⟨fun x hx => (by cases hx), ?_⟩
        intro x hx
        rcases List.mem_cons.mp hx with rfl | hx
        · simp only [listName, Bool.and_eq_true] at h2
          have hb : (mkBlocks (mk (build pr c none s).2) (build pr c (some (before n, index prev (before n) + 1)) r).1).listsOk = true := by
            apply blocks_lists
            intro x hx
            rcases List.mem_cons.mp hx with rfl | hx
            · exact hm
            · exact i1 x hx
          have hlen := build_length (pr := pr) c r (some (before n, index prev (before n) + 1))
          rw [JStmt.listsOk, hb, blocks_count, h2.1.1, h2.2]
          simp only [Bool.true_and, Bool.and_true, decide_eq_true_eq]
          omega
        · exact i2 x hx
      · refine ⟨?_, i2⟩
        intro x hx
        rcases List.mem_cons.mp hx with rfl | hx
        · exact hm
        · exact i1 x hx
    · rw [if_neg (by simp [h1])]
      have hm := mk_lists _ (ihs inside none h4 hw.1.2).2
      refine ⟨fun x hx => (by cases hx), ?_⟩
      intro x hx
      rcases List.mem_cons.mp hx with rfl | hx
      · rw [JStmt.listsOk]; exact hm
      · exact (ih inside none h5 hw.2).2 x hx

/-- The document of a tree. -/
def jdoc (pr : Nat → B → List Char) (c : Bool) (F : Forest (Leaf B)) : JStmts := .one (.braces (mk (build pr c none F).2))

/-- The text of a tree. -/
def jpieces (pr : Nat → B → List Char) (c : Bool) (F : Forest (Leaf B)) : List Piece :=
  [.sign '{'] ++ (pieces pr c true none F ++ [.sign '}'])

theorem jdoc_says {c : Bool} {F : Forest (Leaf B)} (hl : F.allLeaves (fun n v => goodName n && goodLeaf pr num v) = true)
    (hn : F.allNodes goodName = true) (hf : F.full = true) (hg : lists c false none F) :
    Spec.JsonText.Says num (jpieces pr c F) (jdoc pr c F).words := by
  have cb : Closed [.sign '}'] := closed_sign (by decide)
  refine ⟨?_, ?_⟩
  · rw [jpieces]
    exact closed_sign (by decide) _ (ok_pieces c F true none _ hl hn (by decide) ⟨_, _, rfl, .inr ⟨_, rfl⟩⟩)
  · have h := tokens_pieces (num := num) c F false true none hg (by intro a k h; cases h) hl (.inr hf)
    rw [build_none (fun _ => rfl)] at h
    simp only [List.flatMap_nil, List.nil_append, ender] at h
    rw [← words_mk _ (mk_ne hf hg)] at h
    rw [jpieces, tokens_append, tokens_append, h, jdoc, JStmts.words, JStmt.words]
    simp [tok_sign, tok_nil, token]

theorem jdoc_plain {c : Bool} {F : Forest (Leaf B)} (hf : F.full = true) (hg : lists c false none F) :
    (jdoc pr c F).plain = doc pr F := by
  have h := build_plain (pr := pr) c F false none hg (.inr hf)
  rw [jdoc, JStmts.plain, JStmt.plain, doc_ofL]
  exact plain_mk_ofL hf h

theorem jdoc_depth (c : Bool) (F : Forest (Leaf B)) : (jdoc pr c F).depth ≤ depth c F + 1 := by
  rw [jdoc, JStmts.depth, JStmt.depth]
  have := mk_depth _ (build_depth (pr := pr) c F none).2
  omega

theorem jdoc_lists {c : Bool} {F : Forest (Leaf B)} (hg : lists c false none F) (hw : narrow F = true) :
    (jdoc pr c F).listsOk false = true := by
  rw [jdoc, JStmts.listsOk, JStmt.listsOk]
  exact mk_lists _ (build_lists (pr := pr) c F false none hg hw).2

end Verif.Json
