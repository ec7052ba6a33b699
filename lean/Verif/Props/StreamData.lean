import Verif.Proof.StreamData2
import Verif.Props.JsonPrint
/-! ## C101: a configuration written on a stream while it is built -/
set_option linter.unusedSimpArgs false
namespace Verif.StreamData
open Verif.Config (Leaf Val Conv)
open Verif.ConfigDb (Name)
open Verif.Json (Printer jsonPrinter parseJsonText)
open Verif.Spec.ConfigDb (Forest allAllowed)
open Verif.Spec.ConfigDoc (nameOk)
open Verif.Spec.ConfigPrint (asText)
open Verif.Spec.StreamData
open Verif.Spec.Lexer (Piece json)
open Verif.Parser (stackCap)

variable {B : Type} (p : Printer B)

private theorem between_eq : between .line = true ∧ between .varSep = true ∧ between .blockSep = true ∧ (∀ n, between (.openBlock n) = false) ∧
    (∀ n, between (.closeBlock n) = false) ∧ (∀ n, between (.openVar n) = false) ∧ (∀ n, between (.value n) = false) ∧
    (∀ n, between (.closeVar n) = false) := ⟨rfl, rfl, rfl, fun _ => rfl, fun _ => rfl, fun _ => rfl, fun _ => rfl, fun _ => rfl⟩

private theorem evs_elements : ∀ (F : Forest (Leaf B)) (a b v : Bool), (evs p a b v F).filter (!between ·) = elements p F
  | .nil, _, _, _ => rfl
  | .leaf n x r, a, b, v => by
    cases a <;> cases b <;> simp [evs, between_eq, elements, evs_elements r]
  | .node n s r, a, b, v => by
    cases b <;> cases v <;> simp [evs, between_eq, elements, evs_elements s, evs_elements r]

private theorem plain_append : ∀ a b : List Ev, plain (a ++ b) = plain a ++ plain b
  | [], _ => rfl
  | e :: a, b => by cases e <;> simp [plain, plain_append a b]

private theorem evs_plain : ∀ (F : Forest (Leaf B)) (a b v : Bool), (b = false → a = v) → (v = true → a = true) → late b v F = 0 →
    plain (evs p a b v F) = separated p (!(a || b)) F
  | .nil, _, _, _, _, _, _ => rfl
  | .leaf n x r, a, b, v, h1, h2, h => by
    have ih := evs_plain r true b true (fun _ => rfl) (fun _ => rfl) h
    cases a <;> cases b <;> simp_all [evs, plain, plain_append, separated]
  | .node n s r, a, b, v, h1, h2, h => by
    simp only [late] at h
    have ih := evs_plain s false false false (fun _ => rfl) (fun _ => by simp_all) (by omega)
    have ih2 := evs_plain r a true false (by simp) (by simp) (by omega)
    cases b <;> cases v <;> cases a <;> simp_all [evs, plain, plain_append, separated] <;> omega

private theorem evs_count : ∀ (F : Forest (Leaf B)) (a b v : Bool), (b = false → a = v) → (v = true → a = true) →
    (plain (evs p a b v F)).length = (separated p (!(a || b)) F).length + late b v F
  | .nil, _, _, _, _, _ => rfl
  | .leaf n x r, a, b, v, h1, h2 => by
    have ih := evs_count r true b true (fun _ => rfl) (fun _ => rfl)
    cases a <;> cases b <;> simp_all [evs, plain, plain_append, separated, late] <;> omega
  | .node n s r, a, b, v, h1, h2 => by
    have ih := evs_count s false false false (fun _ => rfl) (fun _ => by simp_all)
    have ih2 := evs_count r a true false (by simp) (by simp)
    cases b <;> cases v <;> cases a <;> simp_all [evs, plain, plain_append, separated, late] <;> omega

private theorem whole (F : Forest (Leaf B)) (hf : fits F = true) (hp : printable p F = true) :
    ∃ s, run p init (calls F) = some (List.replicate (calls F).length true, s) ∧ s.cur = [] ∧ s.out = evs p false false false F := by
  simp only [fits, Bool.and_eq_true, decide_eq_true_eq] at hf
  obtain ⟨s, h1, _, h3, h4, _⟩ := run_calls p F init false false ⟨rfl, by simp [Simple, init], rfl⟩ hf.1.1.2 hf.1.1.1
    (by simp [init, Node.new]) hf.1.2 rfl (fun _ => rfl) rfl (by simpa [init, dotted] using hf.2) hp
  exact ⟨s, h1, h3, by simpa [init, Node.new] using h4⟩

/-- **C101.** Every tree, written with any printer by creating, filling and leaving each node: all calls answer yes, the current node is
the root again, and without the lines and separators the stream has the tree. -/
theorem c101_tree (F : Forest (Leaf B)) (hf : fits F = true) (hp : printable p F = true) :
    ∃ s, run p init (calls F) = some (List.replicate (calls F).length true, s) ∧ s.cur = [] ∧
      s.out.filter (!between ·) = elements p F := by
  obtain ⟨s, h1, h2, h3⟩ := whole p F hf hp
  exact ⟨s, h1, h2, by rw [h3, evs_elements]⟩

/-- **C101.** There is exactly one separator between each element and the next if in no node a value comes between two nodes, just before
the second one. -/
theorem c101_separators_partial (F : Forest (Leaf B)) (hf : fits F = true) (hp : printable p F = true) (hl : late false false F = 0) :
    ∃ s, run p init (calls F) = some (List.replicate (calls F).length true, s) ∧ plain s.out = separated p true F := by
  obtain ⟨s, h1, _, h3⟩ := whole p F hf hp
  exact ⟨s, h1, by rw [h3, evs_plain p F _ _ _ (fun _ => rfl) (fun h => h) hl]; rfl⟩

/-- **C101 (disagreement).** In each other case there are more separators than that: one more for each node that comes right after a value
when another node is before. -/
theorem c101_separators_fails (F : Forest (Leaf B)) (hf : fits F = true) (hp : printable p F = true) :
    ∃ s, run p init (calls F) = some (List.replicate (calls F).length true, s) ∧
      (plain s.out).length = (separated p true F).length + late false false F := by
  obtain ⟨s, h1, _, h3⟩ := whole p F hf hp
  exact ⟨s, h1, by rw [h3, evs_count p F _ _ _ (fun _ => rfl) (fun h => h)]; rfl⟩

/-- **C101.** After any calls with simple paths that all answered yes, the blocks on the stream are nested: those that are open are the
nodes on the way to the current node, and this is the one where the calls lead. -/
theorem c101_nested (ops : List (Op B)) (answers : List Bool) (s : St) (hs : ∀ op ∈ ops, simple op) (hl : (ops.map size).sum < 2 ^ 32)
    (h : run p init ops = some (answers, s)) (ha : answers.all id = true) :
    openBlocks [] s.out = some s.cur ∧ leadsTo [] ops s.cur := by
  obtain ⟨u, ⟨h1, _, _, h4⟩, h5⟩ := run_at ops init s [] answers ⟨rfl, rfl, by simp [Simple], rfl⟩ hs (by simpa [dotted] using hl) h ha
  rw [h1]
  exact ⟨h4, h5⟩

/-! ### Reading it again -/

section
open Verif.Json Verif.Spec.JsonPrint Verif.Spec.JsonText
variable (pr : Nat → B → List Char) (conv : Conv B) (num : List Char → Bool)

private def newLine : List Piece := [.blank '\n', .blank '\r']

private def commaIf (c : Bool) : List Piece := if c then [.blank ','] else []

private def spieces : (a b v : Bool) → Forest (Leaf B) → List Piece
  | _, _, _, .nil => []
  | a, b, _, .leaf n x r => commaIf (a || b) ++ (newLine ++ ([quotedName n, .sign ':', .blank ' '] ++ (jValue pr x ++ spieces true b true r)))
  | a, b, v, .node n s r => commaIf b ++ (newLine ++ (commaIf v ++ ([quotedName n, .sign ':', .blank ' ', .sign '{'] ++
      (spieces false false false s ++ (newLine ++ ([.sign '}'] ++ spieces a true false r))))))

private theorem text_append (a b : List Piece) : Spec.Lexer.text (a ++ b) = Spec.Lexer.text a ++ Spec.Lexer.text b := by
  simp [Spec.Lexer.text]

private theorem text_comma (c : Bool) : Spec.Lexer.text (commaIf c) = if c then [','] else [] := by cases c <;> rfl

private theorem text_name (n : Name) : Spec.Lexer.text [quotedName n] = '"' :: (n ++ ['"']) := by
  have : ∀ n : Name, n.flatMap (fun c => (Spec.Lexer.QChar.raw c).text) = n := by
    intro n
    induction n with
    | nil => rfl
    | cons c n ih => simp [Spec.Lexer.QChar.text, ih]
  simp [Spec.Lexer.text, quotedName, Spec.Lexer.Piece.text, List.flatMap_map, this]

private theorem ev_text : Ev.text (jsonPrinter pr) .line = ['\n', '\r'] ∧ Ev.text (jsonPrinter pr) .varSep = [','] ∧
    Ev.text (jsonPrinter pr) .blockSep = [','] ∧ (∀ n, Ev.text (jsonPrinter pr) (.openBlock n) = '"' :: (n ++ "\": {".toList)) ∧
    (∀ n, Ev.text (jsonPrinter pr) (.closeBlock n) = ['}']) ∧ (∀ n, Ev.text (jsonPrinter pr) (.openVar n) = '"' :: (n ++ "\": ".toList)) ∧
    (∀ n, Ev.text (jsonPrinter pr) (.value n) = n) ∧ (∀ n, Ev.text (jsonPrinter pr) (.closeVar n) = []) :=
  ⟨rfl, rfl, rfl, fun _ => rfl, fun _ => rfl, fun _ => rfl, fun _ => rfl, fun _ => rfl⟩

private theorem spieces_text (num : List Char → Bool) : ∀ (F : Forest (Leaf B)) (a b v : Bool),
    F.allLeaves (fun n v => goodName n && goodLeaf pr num v) = true →
    Spec.Lexer.text (spieces pr a b v F) = (evs (jsonPrinter pr) a b v F).flatMap (Ev.text (jsonPrinter pr))
  | .nil, _, _, _, _ => rfl
  | .leaf n x r, a, b, v, h => by
    simp only [Forest.allLeaves, Bool.and_eq_true] at h
    have ih := spieces_text num r true b true h.2
    have hsh : Spec.ConfigPrint.shaped x = true := by
      have := h.1.2
      simp only [goodLeaf, Bool.and_eq_true] at this
      exact this.1.1
    have hv : shown (jsonPrinter pr) x = Spec.Lexer.text (jValue pr x) := by
      simp [shown, jsonPrinter, json_value (pr := pr) x hsh]
    have hn := text_name n
    have e : Spec.Lexer.text [quotedName n, .sign ':', .blank ' '] = '"' :: (n ++ "\": ".toList) := by
      rw [show [quotedName n, Piece.sign ':', Piece.blank ' '] = [quotedName n] ++ [.sign ':', .blank ' '] from rfl, text_append, hn]
      simp [Spec.Lexer.text, Spec.Lexer.Piece.text]
    have e1 : Spec.Lexer.text newLine = ['\n', '\r'] := rfl
    rw [spieces]
    simp only [text_append, text_comma, e, e1, ih, evs]
    cases a <;> cases b <;> simp [ev_text pr, hv]
  | .node n s r, a, b, v, h => by
    simp only [Forest.allLeaves, Bool.and_eq_true] at h
    have ih := spieces_text num s false false false h.1
    have ih2 := spieces_text num r a true false h.2
    have hn := text_name n
    have e : Spec.Lexer.text [quotedName n, .sign ':', .blank ' ', .sign '{'] = '"' :: (n ++ "\": {".toList) := by
      rw [show [quotedName n, Piece.sign ':', Piece.blank ' ', Piece.sign '{'] = [quotedName n] ++ [.sign ':', .blank ' ', .sign '{'] from rfl,
        text_append, hn]
      simp [Spec.Lexer.text, Spec.Lexer.Piece.text]
    have e1 : Spec.Lexer.text newLine = ['\n', '\r'] := rfl
    have e2 : Spec.Lexer.text [.sign '}'] = ['}'] := rfl
    rw [spieces]
    simp only [text_append, text_comma, e, e1, e2, ih, ih2, evs]
    cases b <;> cases v <;> simp [ev_text pr]

private theorem tokens_cat (a b : List Piece) : Spec.Lexer.tokens num (a ++ b) = Spec.Lexer.tokens num a ++ Spec.Lexer.tokens num b := by
  simp [Spec.Lexer.tokens]

private theorem spieces_tokens : ∀ (F : Forest (Leaf B)) (a b v first : Bool),
    Spec.Lexer.tokens num (spieces pr a b v F) = Spec.Lexer.tokens num (pieces pr false first none F)
  | .nil, _, _, _, _ => rfl
  | .leaf n x r, a, b, v, first => by
    have ih := spieces_tokens r true b true false
    have c1 : ∀ c, Spec.Lexer.tokens num (commaIf c) = [] := by intro c; cases c <;> rfl
    have c2 : ∀ c, Spec.Lexer.tokens num (comma c) = [] := by intro c; cases c <;> rfl
    have c3 : Spec.Lexer.tokens num newLine = [] := rfl
    simp only [spieces, pieces, tokens_cat, c1, c2, c3, ih, List.nil_append]
  | .node n s r, a, b, v, first => by
    have ih := spieces_tokens s false false false true
    have ih2 := spieces_tokens r a true false false
    have c1 : ∀ c, Spec.Lexer.tokens num (commaIf c) = [] := by intro c; cases c <;> rfl
    have c2 : ∀ c, Spec.Lexer.tokens num (comma c) = [] := by intro c; cases c <;> rfl
    have c3 : Spec.Lexer.tokens num newLine = [] := rfl
    simp only [spieces, pieces, item, Bool.false_and, Bool.false_eq_true, if_false, tokens_cat, c1, c2, c3, ih, ih2, List.nil_append]

private theorem spieces_sep (F : Forest (Leaf B)) (a b v : Bool) (r : List Piece) (hr : Sep r) : Sep (spieces pr a b v F ++ r) := by
  cases F with
  | nil => exact hr
  | leaf n x R => cases a <;> cases b <;> exact ⟨_, _, rfl, .inl ⟨_, rfl⟩⟩
  | node n s R => cases b <;> exact ⟨_, _, rfl, .inl ⟨_, rfl⟩⟩

private theorem spieces_ok : ∀ (F : Forest (Leaf B)) (a b v : Bool) (r : List Piece),
    F.allLeaves (fun n v => goodName n && goodLeaf pr num v) = true → F.allNodes goodName = true →
    Spec.Lexer.ok json r = true → Sep r → Spec.Lexer.ok json (spieces pr a b v F ++ r) = true := by
  intro F
  have cm : ∀ c, Closed (commaIf c) := by
    intro c
    cases c
    · exact closed_nil
    · exact closed_blank (by decide)
  have nl : Closed newLine := closed_cons (closed_blank (by decide)) (closed_blank (by decide))
  have ob : Closed [.sign '{'] := closed_sign (by decide)
  have cb : Closed [.sign '}'] := closed_sign (by decide)
  have oq : ∀ n, Spec.ConfigPrint.plainText n = true → Closed [quotedName n] := fun n h => closed_quoted h
  induction F with
  | nil => intro a b v r _ _ hr _; exact hr
  | leaf n x R ih =>
    intro a b v r hl hn hr hs
    simp only [Forest.allLeaves, Bool.and_eq_true] at hl
    simp only [Forest.allNodes] at hn
    rw [spieces]
    simp only [List.append_assoc]
    refine cm _ _ (nl _ (closed_cons (oq n (plain_of_good hl.1.1)) (closed_cons (closed_sign (by decide)) (closed_blank (by decide))) _ ?_))
    exact ok_value hl.1.2 (ih true b true r hl.2 hn hr hs) (spieces_sep pr R true b true r hs)
  | node n s R ihs ih =>
    intro a b v r hl hn hr hs
    simp only [Forest.allLeaves, Bool.and_eq_true] at hl
    simp only [Forest.allNodes, Bool.and_eq_true] at hn
    have hq := plain_of_good hn.1.1
    rw [spieces]
    simp only [List.append_assoc]
    refine cm _ _ (nl _ (cm _ _ (closed_cons (oq n hq) (closed_cons (closed_sign (by decide)) (closed_cons (closed_blank (by decide)) ob)) _
      (ihs false false false _ hl.1 hn.1.2 (nl _ (cb _ (ih _ _ _ r hl.2 hn.2 hr hs))) ?_))))
    exact ⟨_, _, rfl, .inl ⟨_, rfl⟩⟩

/-- **C101.** What is written in the JSON language, between braces, is accepted by the parser of that language and gives the tree again, with
texts in the place of the numbers. -/
theorem c101_read_again (F : Forest (Leaf B)) (hf : fits F = true) (hd : F.distinct = true) (hg : good pr num F = true)
    (hfull : F.full = true) (hw : narrow F = true) (hdepth : depth false F ≤ 248) :
    ∃ s, run (jsonPrinter pr) init (calls F) = some (List.replicate (calls F).length true, s) ∧
      ∃ N, ∀ fuel, N ≤ fuel → ∃ u,
        parseJsonText conv num stackCap fuel ConfigDb.init ('{' :: (text (jsonPrinter pr) s ++ ['}'])) = .ok (true, u) ∧
        ∀ calls, allAllowed ⟨(F.map (asText pr)).item, []⟩ calls = true →
          (ConfigDb.run u.cfg.db calls).map (·.1) = some (Spec.ConfigDb.run ⟨(F.map (asText pr)).item, []⟩ calls).1 := by
  simp only [good, Bool.and_eq_true] at hg
  obtain ⟨hl, hn⟩ := hg
  have hlist : lists false false none F := fun e => (by cases e)
  have hp : ∀ F : Forest (Leaf B), F.allLeaves (fun n v => goodName n && goodLeaf pr num v) = true → printable (jsonPrinter pr) F = true := by
    intro F
    induction F with
    | nil => intro _; rfl
    | leaf n x r ih =>
      intro h
      simp only [Forest.allLeaves, Bool.and_eq_true] at h
      have hsh : Spec.ConfigPrint.shaped x = true := by
        have := h.1.2
        simp only [goodLeaf, Bool.and_eq_true] at this
        exact this.1.1
      simp only [printable, Forest.allLeaves, Bool.and_eq_true]
      exact ⟨by simp [jsonPrinter, json_value (pr := pr) x hsh], ih h.2⟩
    | node n s r ih1 ih2 =>
      intro h
      simp only [Forest.allLeaves, Bool.and_eq_true] at h
      simp only [printable, Forest.allLeaves, Bool.and_eq_true]
      exact ⟨ih1 h.1, ih2 h.2⟩
  obtain ⟨s, h1, _, h3⟩ := whole (jsonPrinter pr) F hf (hp F hl)
  refine ⟨s, h1, ?_⟩
  have says : Spec.JsonText.Says num ([.sign '{'] ++ (spieces pr false false false F ++ [.sign '}'])) (jdoc pr false F).words := by
    have := jdoc_says (num := num) hl hn hfull hlist
    refine ⟨?_, ?_⟩
    · exact closed_sign (by decide) _ (spieces_ok pr num F _ _ _ _ hl hn (by decide) ⟨_, _, rfl, .inr ⟨_, rfl⟩⟩)
    · rw [← this.2, jpieces]
      simp only [tokens_cat, spieces_tokens pr num F false false false true]
  have h4 := c63_text_to_tree conv num (jdoc pr false F) (jdoc_lists hlist hw) (by rw [jdoc_plain hfull hlist]; exact doc_ok conv hl hn hfull hd)
    (Nat.le_trans (jdoc_depth false F) (by omega)) _ says
  rw [jdoc_plain hfull hlist, doc_tree conv hl hfull, text_append, text_append, spieces_text pr num F _ _ _ hl, ← h3] at h4
  exact h4

end

/-! ### Concrete cases -/

set_option maxRecDepth 8000

def prId (_ : Nat) (b : List Char) : List Char := b

def one : Leaf (List Char) := ⟨5, 0, 1, 1, [.num ['1']]⟩

/-- The answers and the text. -/
def written (p : Printer (List Char)) (ops : List (Op (List Char))) : Option (List Bool × String × List Name) :=
  (run p init ops).map fun r => (r.1, String.ofList (text p r.2), r.2.cur)

private def sample : Forest (Leaf (List Char)) := .leaf ['x'] one (.node ['A'] (.leaf ['y'] one (.node ['B'] (.leaf ['z'] one .nil) .nil)) (.leaf ['t'] one .nil))

/-- The hypotheses hold for it. -/
example : fits sample = true ∧ printable (jsonPrinter prId) sample = true ∧ late false false sample = 0 ∧ sample.distinct = true ∧
    Spec.JsonPrint.good prId (fun s => s.all Char.isDigit) sample = true ∧ sample.full = true ∧ Spec.JsonPrint.narrow sample = true := by
  decide +kernel

example : written (jsonPrinter prId) (calls sample) =
    some (List.replicate 8 true, "\n\r\"x\": 1\n\r,\"A\": {\n\r\"y\": 1\n\r,\"B\": {\n\r\"z\": 1\n\r}\n\r},\n\r\"t\": 1", []) := by
  decide +kernel

/-- A value between two nodes. -/
def mixed : Forest (Leaf (List Char)) := .node ['A'] (.leaf ['x'] one .nil) (.leaf ['y'] one (.node ['B'] (.leaf ['z'] one .nil) .nil))

/-- **C101 (disagreement).** A value between two nodes: two commas, which is not JSON (the hypotheses of `c101_separators_fails` hold). -/
theorem c101_comma_fails :
    fits mixed = true ∧ printable (jsonPrinter prId) mixed = true ∧ late false false mixed = 1 ∧
    (written (jsonPrinter prId) (calls mixed)).map (·.2.1) =
      some "\n\r\"A\": {\n\r\"x\": 1\n\r},\n\r\"y\": 1,\n\r,\"B\": {\n\r\"z\": 1\n\r}" := by decide +kernel

/-- **C101 (disagreement).** A node next to the current one, with a path from the root: the blocks are closed, but the answer is no and the
current node is the old one. -/
theorem c101_sibling_fails (a b : Name) (ha : nameOk a = true) (hb : nameOk b = true) (hab : a ≠ b) :
    ∃ s, run p init [.createAbsolute a, .createAbsolute b] = some ([true, false], s) ∧ s.cur = [a] ∧
      s.out = [.line, .openBlock a, .line, .closeBlock a] := by
  have la : a.length < 2 ^ 32 := (nameOk_iff.mp ha).1.2
  have lb : b.length < 2 ^ 32 := (nameOk_iff.mp hb).1.2
  obtain ⟨s, e, g, c, bc, o, n1, n2, _⟩ := create_step (s := init) ⟨rfl, by simp [Simple, init], rfl⟩ ha (by simp [init, Node.new])
    (by simpa [init, dotted] using la)
  have e1 : createAbsolute a init = (true, s) := e
  have c' : s.cur = [a] := c
  have hk : (s.node []).kids = [a] := by rw [show s.node [] = _ from n2]; rfl
  have e2 := createLoop_new b hb s [] [] (b.length + 1) (by simp [Simple]) rfl (by rw [List.append_nil, hk]; simpa using hab.symm)
    (by have := List.length_pos_iff.mpr (nameOk_iff.mp hb).1.1; simp; omega)
  simp only [List.nil_append, dotted, hk, List.singleton_append] at e2
  have adr : RefC.setAddress b = [b] := address (ws := [b]) (by simpa [Simple] using hb) (by simp) (by simpa [dotted] using lb)
  have hcom : common [b] '.' s.path 0 = 0 := by
    rw [g.1, c', common_eq _ _ _ (by simpa [Simple] using ha) (by simpa [Simple] using hb)]
    simp [lcp, hab.symm]
  refine ⟨(createAbsolute b s).2, ?_, ?_, ?_⟩
  · simp only [run, step, e1, Option.bind_some, Option.map_some, Option.some.injEq, Prod.mk.injEq, and_true, List.cons.injEq, true_and]
    rw [createAbsolute, e2, moveAbsolute]
    simp [adr, hcom, isThere, St.set, Node.new, c']
  · rw [createAbsolute, e2, moveAbsolute]
    simp [adr, hcom, isThere, St.set, Node.new, c', closeDown, St.put]
  · rw [createAbsolute, e2, moveAbsolute]
    simp [adr, hcom, isThere, St.set, Node.new, c', closeDown, St.put, o, init]

/-- **C101 (disagreement).** The example of the documentation that is said not to be allowed: the block `B` is written twice. -/
theorem c101_again_fails : written (jsonPrinter prId) [.createAbsolute "A.B".toList, .createAbsolute "A.C".toList,
    .createAbsolute "A.B.D".toList] =
    some ([true, true, true], "\n\r\"A\": {\n\r\"B\": {\n\r},\n\r\"C\": {\n\r},\n\r\"B\": {\n\r\"D\": {", [['A'], ['B'], ['D']]) := by
  decide +kernel

/-- A value that the printer cannot print is refused, after any calls: the answer is no, the place does not change, and the
element stays open on the stream. -/
theorem c101_refused (s : St) (n : Name) (v : Leaf B) (t : List Char) (h : p.value v = some (false, t)) :
    ∃ s' sep, step p s (.write n v) = some (false, s') ∧ s'.out = s.out ++ sep ++ [.openVar n, .value t] ∧
      (∀ e ∈ sep, between e = true) ∧ s'.cur = s.cur ∧ s'.path = s.path := by
  by_cases h1 : (s.node s.cur).vars > 0
  · refine ⟨_, [.varSep, .line], by simp only [step, write, h]; rfl, ?_, ?_, ?_, ?_⟩
    · simp [h1, St.put, St.set]
    · simp [between_eq]
    · simp [h1, St.put, St.set]
    · simp [h1, St.put, St.set]
  · cases h2 : (s.node s.cur).sepWrite
    · refine ⟨_, [.line], by simp only [step, write, h]; rfl, ?_, ?_, ?_, ?_⟩
      · simp [h1, h2, St.put, St.set]
      · simp [between_eq]
      · simp [h1, h2, St.put, St.set]
      · simp [h1, h2, St.put, St.set]
    · refine ⟨_, [.blockSep, .line], by simp only [step, write, h]; rfl, ?_, ?_, ?_, ?_⟩
      · simp [h1, h2, St.put, St.set]
      · simp [between_eq]
      · simp [h1, h2, St.put, St.set]
      · simp [h1, h2, St.put, St.set]

/-- A value with three dimensions is one that the printers cannot print. -/
example : (jsonPrinter prId).value ⟨5, 3, 1, 1, [.num ['1']]⟩ = some (false, []) := by decide

/-- **C101 (disagreement).** At the root, `MoveToRoot` answers no. -/
theorem c101_root_fails : run p init [.moveToRoot] = some ([false], init) := rfl

/-- The hypotheses of `c101_nested` hold. -/
example : ∃ ops : List (Op (List Char)), (∀ op ∈ ops, simple op) ∧ (ops.map size).sum < 2 ^ 32 ∧
    (written (jsonPrinter prId) ops).map (·.1.all id) = some true ∧ ops.length = 6 := by
  have h1 : ∀ c : Char, c ≠ '.' → c ≠ '\x00' → nameOk [c] = true := by
    intro c h h0; rw [nameOk_iff]; simp [h.symm, h0.symm]
  refine ⟨[.createAbsolute "A.B.C".toList, .write ['x'] one, .moveToAncestor 1, .createRelative ['D'], .moveAbsolute ['A'], .moveToRoot], ?_, by decide, by decide +kernel, rfl⟩
  intro op hop
  simp only [List.mem_cons, List.not_mem_nil, or_false] at hop
  rcases hop with rfl | rfl | rfl | rfl | rfl | rfl
  · exact ⟨[['A'], ['B'], ['C']], by simp, by decide, rfl⟩
  · exact trivial
  · exact trivial
  · exact ⟨[['D']], by simp, by decide, rfl⟩
  · exact ⟨[['A']], by simp, by decide, rfl⟩
  · exact trivial

end Verif.StreamData
