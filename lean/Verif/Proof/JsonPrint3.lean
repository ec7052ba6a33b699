import Verif.Proof.JsonPrint2
import Verif.Proof.Forest
/-! ## What `PrintStructuredDataI` does with the JSON printer -/
set_option linter.unusedSimpArgs false
set_option maxRecDepth 8000
namespace Verif.Json
open Verif.Config (Leaf Val Hist hist_step text_append)
open Verif.ConfigDb (Op Out St Name step)
open Verif.Spec.ConfigDb (Db Item Forest Part children isNode stepName stepName_path hist_size hist_childName hist_into hist_not_into
  hist_read hist_back part_nil part_leaf part_node at_none at_some at_node_ne)
open Verif.Spec.ConfigPrint (shaped plainText isText)
open Verif.Spec.ConfigDoc (nameOk)
open Verif.Spec.JsonDoc (blockName)
open Verif.Spec.JsonPrint
open Verif.Spec.Lexer (Piece QChar text)

variable {B : Type} {pr : Nat → B → List Char} {num : List Char → Bool}

theorem printName_eq (a : Name) (k : Nat) : printName a k = blockName a k := by unfold printName blockName; simp

theorem bracket_mem (a : Name) (k : Nat) : '[' ∈ blockName a k := by unfold blockName; simp

theorem before_block {a : Name} (h : '[' ∉ a) (k : Nat) : before (blockName a k) = a := by
  unfold before blockName
  rw [List.append_assoc, List.append_assoc, List.takeWhile_append_of_pos (fun c hc => by
    have : c ≠ '[' := fun e => h (e ▸ hc)
    simp [this])]
  simp

theorem block_inj {a b : Name} {k m : Nat} (ha : '[' ∉ a) (hb : '[' ∉ b) (h : blockName a k = blockName b m) : a = b ∧ k = m := by
  have e : a = b := by rw [← before_block ha k, h, before_block hb]
  subst e
  refine ⟨rfl, ?_⟩
  unfold blockName at h
  simp only [List.append_assoc] at h
  have h := List.append_cancel_left (List.append_cancel_left h)
  have h := List.append_cancel_right h
  have := congrArg (fun l => Nat.ofDigitChars 10 l 0) h
  simpa [Nat.ofDigitChars_ten_toDigits] using this

theorem step_block {a : Name} (h : nameOk a = true) (hl : a.length < 2 ^ 31) {k : Nat} (hk : k < 2 ^ 32) : stepName (blockName a k) = true := by
  simp only [nameOk, Bool.and_eq_true, decide_eq_true_eq, Bool.not_eq_true', List.contains_eq_mem, decide_eq_false_iff_not] at h
  have hlen : (Nat.toDigits 10 k).length ≤ 10 := (Nat.length_toDigits_le_iff (by decide) (by decide)).mpr (by omega)
  have dig : ∀ c, c.isDigit = false → c ∉ Nat.toDigits 10 k := by
    intro c hc hm
    have := Nat.isDigit_of_mem_toDigits (by decide) (by decide) hm
    rw [hc] at this; cases this
  simp only [stepName, Bool.and_eq_true, decide_eq_true_eq, Bool.not_eq_true', List.contains_eq_mem, decide_eq_false_iff_not, blockName]
  refine ⟨⟨⟨by simp, ?_⟩, ?_⟩, ?_⟩
  · simp only [List.length_append, List.length_cons, List.length_nil, decide_eq_true_eq]; omega
  · simp only [List.mem_append, List.mem_singleton, not_or]
    exact ⟨⟨⟨h.1.2, by decide⟩, dig _ (by decide)⟩, by decide⟩
  · simp only [List.mem_append, List.mem_singleton, not_or]
    exact ⟨⟨⟨h.2, by decide⟩, dig _ (by decide)⟩, by decide⟩

theorem hist_missing {s : St (Leaf B)} {db : Db (Leaf B)} (h : Hist s db) {n : Name} (hn : stepName n = true)
    (hi : isNode (db.item (db.cur ++ [n])) = false) :
    ∃ s', step s (.moveRelative n) = some (.flag false, s') ∧ Hist s' db := by
  obtain ⟨a, b⟩ := stepName_path hn
  obtain ⟨s', h1, h2⟩ := hist_step h (.moveRelative n) a
  have e : Spec.ConfigDb.step db (.moveRelative n) = (.flag false, db) := by
    simp only [Spec.ConfigDb.step, Spec.ConfigDb.moveTo, b]
    rw [if_neg (by rw [hi]; simp)]
  rw [e] at h1 h2
  exact ⟨s', h1, h2⟩

theorem node_of {x : Option (Item (Leaf B))} (h : isNode x = true) : ∃ ch, x = some (.node ch) := by
  match x, h with
  | some (.node ch), _ => exact ⟨ch, rfl⟩

theorem size_loop {db : Db (Leaf B)} {a : Name} {R : Nat} (ha : nameOk a = true) (hl : a.length < 2 ^ 31)
    (hn : ∀ m, isNode (db.item (db.cur ++ [blockName a m])) = decide (m < R + 1)) :
    ∀ (size : Nat) (s : St (Leaf B)), Hist s db → R ≤ size → size < 2 ^ 32 → ∃ s', listSizeLoop a size s = some (R, s') ∧ Hist s' db := by
  intro size
  induction size with
  | zero => intro s hs hR _; exact ⟨s, by rw [listSizeLoop, show R = 0 by omega], hs⟩
  | succ size ih =>
    intro s hs hR hz
    rw [listSizeLoop, printName_eq]
    by_cases e : R = size + 1
    · have := hn (size + 1)
      rw [decide_eq_true (by omega)] at this
      obtain ⟨ch, hc⟩ := node_of this
      obtain ⟨s1, e1, g1⟩ := hist_into hs (step_block ha hl hz) hc
      obtain ⟨s2, e2, g2⟩ := hist_back db.item db.cur _ g1
      rw [e1]
      simp only [e2, Option.map_some]
      exact ⟨s2, by rw [e], g2⟩
    · have := hn (size + 1)
      rw [decide_eq_false (by omega)] at this
      obtain ⟨s1, e1, g1⟩ := hist_missing hs (step_block ha hl hz) this
      obtain ⟨s2, e2, g2⟩ := ih s1 g1 (by omega) (by omega)
      rw [e1]
      exact ⟨s2, e2, g2⟩

theorem list_size {db : Db (Leaf B)} {a : Name} {R : Nat} (ha : nameOk a = true) (hl : a.length < 2 ^ 31)
    (hn : ∀ m, isNode (db.item (db.cur ++ [blockName a m])) = decide (m < R + 1)) {s : St (Leaf B)} (hs : Hist s db)
    (hR : R ≤ (children db.item db.cur).length) (hc : (children db.item db.cur).length < 2 ^ 32 - 1) :
    ∃ s', listSize a s = some (R + 1, s') ∧ Hist s' db := by
  obtain ⟨s1, e1, g1⟩ := hist_size hs
  obtain ⟨s2, e2, g2⟩ := size_loop ha hl hn _ s1 g1 hR (by omega)
  refine ⟨s2, ?_, g2⟩
  rw [listSize, e1]
  simp only [e2, Option.map_some]
  rw [Nat.mod_eq_of_lt (by omega)]

/-! ### Lists in a forest -/

theorem runLen_le (a : Name) : ∀ (F : Forest (Leaf B)) (k : Nat), runLen a k F ≤ F.names.length
  | .nil, _ => Nat.le_refl 0
  | .leaf _ _ _, _ => Nat.zero_le _
  | .node n _ r, k => by
    rw [runLen, Forest.names, List.length_cons]
    split
    · have := runLen_le a r (k + 1); omega
    · omega

theorem run_node {a : Name} : ∀ (F : Forest (Leaf B)) (k m : Nat), F.distinct = true → k ≤ m → m < k + runLen a k F →
    isNode (F.at (blockName a m) []) = true ∧ blockName a m ∈ F.names
  | .nil, k, m, _, h1, h2 => by simp only [runLen] at h2; omega
  | .leaf _ _ _, k, m, _, h1, h2 => by simp only [runLen] at h2; omega
  | .node n s r, k, m, hd, h1, h2 => by
    rw [runLen] at h2
    simp only [Forest.distinct, Bool.and_eq_true, decide_eq_true_eq] at hd
    by_cases e : n = blockName a k
    · rw [if_pos e] at h2
      by_cases em : m = k
      · subst em
        rw [← e, Forest.at, if_pos rfl]
        exact ⟨rfl, by simp [Forest.names]⟩
      · obtain ⟨x, y⟩ := run_node (a := a) r (k + 1) m hd.2 (by omega) (by omega)
        have hne : n ≠ blockName a m := fun q => hd.1.1 (by rw [q]; exact y)
        rw [at_node_ne hne]
        exact ⟨x, by simp [Forest.names, y]⟩
    · rw [if_neg e] at h2; omega

/-- The nodes of a list: they are in the run that goes on, or in a list that begins here. -/
theorem node_run {a : Name} (ha : '[' ∉ a) {m : Nat} : ∀ (F : Forest (Leaf B)) (inside : Bool) (prev : Option (Name × Nat)),
    listed inside prev F = true → isNode (F.at (blockName a m) []) = true →
    blockName a 0 ∈ F.names ∨ ∃ k, prev = some (a, k) ∧ k ≤ m ∧ m < k + runLen a k F
  | .nil, _, _, _, h => by simp [Forest.at, isNode] at h
  | .leaf n v r, inside, prev, hl, h => by
    rw [listed] at hl
    rw [Forest.at] at h
    by_cases e : n = blockName a m
    · rw [if_pos e, if_pos rfl] at h; simp [isNode] at h
    · rw [if_neg e] at h
      rcases node_run ha r inside none hl h with q | ⟨k, q, _⟩
      · exact .inl (by simp [Forest.names, q])
      · cases q
  | .node n s r, inside, prev, hl, h => by
    rw [listed] at hl
    by_cases hb : n.contains '[' = true
    · rw [if_pos hb] at hl
      simp only [Bool.and_eq_true, decide_eq_true_eq] at hl
      obtain ⟨⟨⟨_, hn⟩, _⟩, hr⟩ := hl
      have hfree : '[' ∉ before n := by simpa using before_free n
      by_cases e : n = blockName a m
      · have e2 : before n = a := by rw [e, before_block ha]
        rw [e2] at hn
        have := (block_inj ha ha (hn.symm.trans e)).2
        by_cases h0 : index prev a = 0
        · left; rw [hn, h0]; simp [Forest.names]
        · right
          refine ⟨m, ?_, Nat.le_refl _, ?_⟩
          · rw [← this]; exact index_some h0
          · rw [runLen, if_pos e]; omega
      · rw [at_node_ne e] at h
        rcases node_run ha r inside _ hr h with q | ⟨k, q, h1, h2⟩
        · exact .inl (by simp [Forest.names, q])
        · simp only [Option.some.injEq, Prod.mk.injEq] at q
          obtain ⟨q1, q2⟩ := q
          rw [q1] at hn q2
          by_cases h0 : index prev a = 0
          · left; rw [hn, h0]; simp [Forest.names]
          · right
            refine ⟨index prev a, index_some h0, by omega, ?_⟩
            rw [runLen, if_pos hn]
            subst q2
            omega
    · rw [if_neg hb, Bool.and_eq_true] at hl
      have e : n ≠ blockName a m := fun q => hb (by rw [q]; simpa using bracket_mem a m)
      rw [at_node_ne e] at h
      rcases node_run ha r inside none hl.2 h with q | ⟨k, q, _⟩
      · exact .inl (by simp [Forest.names, q])
      · cases q

theorem listNameOf_eq {a : Name} (ha : '[' ∉ a) (h0 : '\x00' ∉ a) (hne : a ≠ []) (hl : a.length < 2 ^ 31) (k : Nat) :
    listNameOf (blockName a k) = (true, a) := by
  have gen : ∀ (a out rest : List Char), '[' ∉ a → '\x00' ∉ a → out.length + a.length < 2 ^ 32 →
      out.length + a.length ≠ 0 → Token.getTokenLoop ['['] ['['] (a ++ '[' :: rest) out.length out = ⟨true, out ++ a, '[', rest⟩ := by
    intro a
    induction a with
    | nil =>
      intro out rest _ _ _ h
      simp only [List.nil_append, Token.getTokenLoop, List.append_nil]
      have : Token.searchChar ['['] '[' = true := by decide
      simp only [this, Bool.true_or, if_true]
      have : (out.length != 0) = true := by simpa using h
      rw [this]; rfl
    | cons c a ih =>
      intro out rest h1 h2 h3 _
      simp only [List.mem_cons, not_or] at h1 h2
      have hs : Token.searchChar ['['] c = false := by
        simp [Token.searchChar, Ne.symm h1.1, h1.1, Ne.symm h2.1]
      have hz : (c == '\x00') = false := by simpa using Ne.symm h2.1
      simp only [List.cons_append, Token.getTokenLoop, hs, hz, Bool.or_self, Bool.false_eq_true, if_false, Bool.not_false, if_true]
      simp only [List.length_cons] at h3
      rw [Nat.mod_eq_of_lt (by omega)]
      have := ih (out ++ [c]) rest h1.2 h2.2 (by simp; omega) (by simp)
      rw [List.length_append] at this
      simpa using this
  unfold listNameOf Token.getToken
  have : blockName a k = a ++ '[' :: (Nat.toDigits 10 k ++ [']']) := by rw [← printName_eq]; rfl
  rw [this]
  have h := gen a [] (Nat.toDigits 10 k ++ [']']) ha h0 (by simp; omega) (by
    simp only [List.length_nil, Nat.zero_add]; intro e; exact hne (List.length_eq_zero_iff.mp e))
  simp only [List.length_nil] at h
  simp only [Option.getD_none, h, List.nil_append]

/-! ### The steps of the loop -/

/-- The blocks of the list that is open, still to come. -/
def leftOf (prev : Option (Name × Nat)) (F : Forest (Leaf B)) : Nat :=
  match prev with
  | none => 0
  | some (a, k) => runLen a k F

/-- All the children are known. -/
structure Whole (db : Db (Leaf B)) : Prop where
  nodup : (children db.item db.cur).Nodup
  few : (children db.item db.cur).length < 2 ^ 32 - 1
  other : ∀ x, x ∉ children db.item db.cur → isNode (db.item (db.cur ++ [x])) = false

/-- Lists begin with the number 0. -/
structure Seen (db : Db (Leaf B)) (i : Nat) (prev : Option (Name × Nat)) : Prop where
  zero : ∀ a m, '[' ∉ a → blockName a m ∈ (children db.item db.cur).take i → isNode (db.item (db.cur ++ [blockName a m])) = true →
    blockName a 0 ∈ (children db.item db.cur).take i
  prev : ∀ a k, prev = some (a, k) → '[' ∉ a ∧ k ≠ 0 ∧ blockName a 0 ∈ (children db.item db.cur).take i

theorem separate_eq {l : Loop B} {first : Bool} (hok : l.ok = true) (h : (l.afterBlock || l.afterVar) = !first) :
    separate (jsonPrinter pr) l = { l with out := l.out ++ text (comma first) } := by
  obtain ⟨db, out, ok, ab, av, lo, left, ln⟩ := l
  simp only at hok h ⊢
  subst hok
  unfold separate Loop.put jsonPrinter
  cases ab <;> cases av <;> cases first <;> simp_all [comma, text, Piece.text]

theorem names_nodup : ∀ {F : Forest (Leaf B)}, F.distinct = true → F.names.Nodup
  | .nil, _ => by simp [Forest.names]
  | .leaf _ _ r, h => by
    simp only [Forest.distinct, Bool.and_eq_true, decide_eq_true_eq] at h
    rw [Forest.names, List.nodup_cons]
    exact ⟨h.1, names_nodup h.2⟩
  | .node _ _ r, h => by
    simp only [Forest.distinct, Bool.and_eq_true, decide_eq_true_eq] at h
    rw [Forest.names, List.nodup_cons]
    exact ⟨h.1.1, names_nodup h.2⟩

theorem narrow_few : ∀ {F : Forest (Leaf B)}, narrow F = true → F.names.length < 2 ^ 32 - 1
  | .nil, _ => by simp [Forest.names]
  | .leaf _ _ r, h => by
    simp only [narrow, Bool.and_eq_true, decide_eq_true_eq] at h
    rw [Forest.names, List.length_cons]; exact h.1
  | .node _ _ r, h => by
    simp only [narrow, Bool.and_eq_true, decide_eq_true_eq] at h
    rw [Forest.names, List.length_cons]; exact h.1.1

theorem whole_child {db : Db (Leaf B)} {i : Nat} {n : Name} {S r : Forest (Leaf B)} (hp : Part db.item db.cur i (.node n S r))
    (hd : S.distinct = true) (hw : narrow S = true) : Whole ⟨db.item, db.cur ++ [n]⟩ := by
  have e : ∀ q, db.item (db.cur ++ n :: q) = (Forest.node n S r).at n q := hp.at' n (by simp [Forest.names])
  have ec : children db.item (db.cur ++ [n]) = S.names := by
    rw [children, e [], Forest.at, if_pos rfl]
  refine ⟨?_, ?_, ?_⟩
  · simp only [ec]; exact names_nodup hd
  · simp only [ec]; exact narrow_few hw
  · intro x hx
    simp only [ec] at hx
    have := e [x]
    rw [Forest.at, if_pos rfl] at this
    simp only [List.append_assoc, List.cons_append, List.nil_append]
    rw [this, at_none hx]; rfl

theorem seen_new (db : Db (Leaf B)) : Seen db 0 none :=
  ⟨fun a m _ h => (by simp at h), fun a k h => (by cases h)⟩

theorem take_next {α : Type} {l : List α} {i : Nat} {x : α} (h : l[i]? = some x) : l.take (i + 1) = l.take i ++ [x] := by
  rw [List.take_add_one, h]; rfl

theorem seen_leaf {db : Db (Leaf B)} {i : Nat} {prev : Option (Name × Nat)} {n : Name} {v : Leaf B} (h : Seen db i prev)
    (hi : (children db.item db.cur)[i]? = some n) (hv : db.item (db.cur ++ [n]) = some (.leaf v)) : Seen db (i + 1) none := by
  refine ⟨fun a m ha hm hn => ?_, fun a k e => (by cases e)⟩
  rw [take_next hi] at hm ⊢
  rcases List.mem_append.mp hm with hm | hm
  · exact List.mem_append_left _ (h.zero a m ha hm hn)
  · simp only [List.mem_singleton] at hm
    rw [hm, hv] at hn; simp [isNode] at hn

theorem seen_plain {db : Db (Leaf B)} {i : Nat} {prev : Option (Name × Nat)} {n : Name} (h : Seen db i prev)
    (hi : (children db.item db.cur)[i]? = some n) (hb : '[' ∉ n) : Seen db (i + 1) none := by
  refine ⟨fun a m ha hm hn => ?_, fun a k e => (by cases e)⟩
  rw [take_next hi] at hm ⊢
  rcases List.mem_append.mp hm with hm | hm
  · exact List.mem_append_left _ (h.zero a m ha hm hn)
  · simp only [List.mem_singleton] at hm
    exact absurd (hm ▸ bracket_mem a m) hb

theorem seen_item {db : Db (Leaf B)} {i : Nat} {prev : Option (Name × Nat)} {n a : Name} (h : Seen db i prev)
    (hi : (children db.item db.cur)[i]? = some n) (ha : '[' ∉ a) (hn : n = blockName a (index prev a)) :
    Seen db (i + 1) (some (a, index prev a + 1)) := by
  have z : blockName a 0 ∈ (children db.item db.cur).take (i + 1) := by
    rw [take_next hi]
    by_cases h0 : index prev a = 0
    · rw [h0] at hn; exact List.mem_append_right _ (by simp [hn])
    · exact List.mem_append_left _ (h.prev a _ (index_some h0)).2.2
  refine ⟨fun b m hb hm hx => ?_, fun b k e => ?_⟩
  · rw [take_next hi] at hm
    rcases List.mem_append.mp hm with hm | hm
    · rw [take_next hi]; exact List.mem_append_left _ (h.zero b m hb hm hx)
    · simp only [List.mem_singleton] at hm
      have := (block_inj hb ha (hm.trans hn)).1
      rw [this]; exact z
  · simp only [Option.some.injEq, Prod.mk.injEq] at e
    obtain ⟨rfl, rfl⟩ := e
    exact ⟨ha, by omega, z⟩

/-- The size of the list that begins at the child `i`. -/
theorem first_size {db : Db (Leaf B)} {i : Nat} {prev : Option (Name × Nat)} {inside : Bool} {n a : Name} {S r : Forest (Leaf B)} (hw : Whole db)
    (hs : Seen db i prev) (hp : Part db.item db.cur i (.node n S r)) (hd : (Forest.node n S r).distinct = true) (ha : '[' ∉ a)
    (hn : n = blockName a 0) (hl : listed inside (some (a, 1)) r = true) :
    ∀ m, isNode (db.item (db.cur ++ [blockName a m])) = decide (m < runLen a 1 r + 1) := by
  have hdd := hd
  simp only [Forest.distinct, Bool.and_eq_true, decide_eq_true_eq] at hd
  obtain ⟨p1, p2, p3, p4, p5⟩ := part_node hp hd.1.1
  intro m
  have split : children db.item db.cur = (children db.item db.cur).take (i + 1) ++ r.names := by
    rw [← p3.names, List.take_append_drop]
  by_cases h : m < runLen a 1 r + 1
  · rw [decide_eq_true h]
    by_cases h0 : m = 0
    · subst h0; rw [← hn, p4]; rfl
    · obtain ⟨x, y⟩ := run_node (a := a) r 1 m hd.2 (by omega) (by omega)
      rw [p3.at' _ y []]; exact x
  · rw [decide_eq_false h]
    rw [Bool.eq_false_iff]
    intro hx
    by_cases hm : blockName a m ∈ children db.item db.cur
    · rw [split, List.mem_append] at hm
      rcases hm with hm | hm
      · rw [take_next p2] at hm
        rcases List.mem_append.mp hm with hm | hm
        · have := hs.zero a m ha hm hx
          have nd := hw.nodup
          rw [split, take_next p2, List.append_assoc, List.nodup_append] at nd
          exact nd.2.2 _ this n (by simp) hn.symm
        · simp only [List.mem_singleton] at hm
          have := (block_inj ha ha (hm.trans hn)).2
          omega
      · rw [p3.at' _ hm []] at hx
        rcases node_run ha r inside _ hl hx with q | ⟨k, q, h1, h2⟩
        · exact hd.1.1 (by rw [hn]; exact q)
        · simp only [Option.some.injEq, Prod.mk.injEq] at q
          obtain ⟨_, rfl⟩ := q
          omega
    · rw [hw.other _ hm] at hx; cases hx

/-- What `openNode` does: the state, up to `listName`. -/
structure Opened (l l1 : Loop B) (t : List Char) (left : Nat) (isOpen : Bool) (db : Db (Leaf B)) : Prop where
  ok : l1.ok = true
  out : l1.out = l.out ++ t
  afterBlock : l1.afterBlock = true
  left : l1.left = left
  listOpen : l1.listOpen = isOpen
  hist : Hist l1.db db

theorem open_plain {c : Bool} {n : Name} {l : Loop B} {db : Db (Leaf B)} (h : item c n = false) (hok : l.ok = true) (hleft : l.left = 0)
    (hlo : l.listOpen = false) (hs : Hist l.db db) :
    ∃ l1, openNode (jsonPrinter pr) c n l = some l1 ∧ Opened l l1 (text [quotedName n, .sign ':', .blank ' ', .sign '{']) 0 false db := by
  have ht : '"' :: (n ++ "\": {".toList) = text [quotedName n, .sign ':', .blank ' ', .sign '{'] := by
    simp [text, Piece.text, quotedName, QChar.text, List.flatMap_map]
  obtain ⟨d, out, ok, ab, av, lo, left, ln⟩ := l
  simp only at hok hleft hlo hs
  subst hok; subst hleft; subst hlo
  refine ⟨⟨d, out ++ text [quotedName n, .sign ':', .blank ' ', .sign '{'], true, true, false, false, 0, ln⟩, ?_, rfl, rfl, rfl, rfl, rfl, hs⟩
  rw [← ht]
  cases c with
  | false => rfl
  | true =>
    have hi : isListItem n = false := by simpa [item, isListItem] using h
    simp only [openNode, if_true, Nat.lt_irrefl, gt_iff_lt, if_false, countList, hi, Bool.false_eq_true, Option.bind_some, openFirst]
    rfl

theorem open_next {n : Name} {l : Loop B} {db : Db (Leaf B)} {k : Nat} (hleft : l.left = k + 1) (hlo : l.listOpen = true) (hs : Hist l.db db) :
    ∃ l1, openNode (jsonPrinter pr) true n l = some l1 ∧ Opened l l1 (text [.sign '{']) k true db := by
  obtain ⟨d, out, ok, ab, av, lo, left, ln⟩ := l
  simp only at hleft hlo hs
  subst hleft; subst hlo
  refine ⟨⟨d, out ++ ['{'], true, true, false, true, k, ln⟩, ?_, rfl, rfl, rfl, rfl, rfl, hs⟩
  simp only [openNode, if_true, gt_iff_lt, Nat.zero_lt_succ]
  rfl

theorem open_first {n a : Name} {l : Loop B} {db : Db (Leaf B)} {ch : List Name} {R : Nat} (hn : n = blockName a 0) (ha : '[' ∉ a) (hna : nameOk a = true)
    (hla : a.length < 2 ^ 31) (hok : l.ok = true) (hleft : l.left = 0) (hs : Hist l.db ⟨db.item, db.cur ++ [n]⟩)
    (hi : db.item (db.cur ++ [n]) = some (.node ch))
    (hsize : ∀ m, isNode (db.item (db.cur ++ [blockName a m])) = decide (m < R + 1))
    (hR : R ≤ (children db.item db.cur).length) (hc : (children db.item db.cur).length < 2 ^ 32 - 1) :
    ∃ l1, openNode (jsonPrinter pr) true n l = some l1 ∧
      Opened l l1 (text [quotedName a, .blank ' ', .sign ':', .blank ' ', .sign '[', .sign '{']) R true ⟨db.item, db.cur ++ [n]⟩ := by
  have hb : isListItem n = true := by
    rw [hn]; simpa [isListItem] using bracket_mem a 0
  have h0 := hna
  simp only [nameOk, Bool.and_eq_true, decide_eq_true_eq, Bool.not_eq_true', List.contains_eq_mem, decide_eq_false_iff_not] at h0
  have hln : listNameOf n = (true, a) := by rw [hn]; exact listNameOf_eq ha h0.1.2 h0.1.1.1 hla 0
  obtain ⟨d, out, ok, ab, av, lo, left, ln⟩ := l
  simp only at hok hleft hs
  subst hok; subst hleft
  obtain ⟨s1, e1, g1⟩ := hist_back db.item db.cur n hs
  obtain ⟨s2, e2, g2⟩ := list_size hna hla hsize g1 hR hc
  obtain ⟨s3, e3, g3⟩ := hist_into g2 (step_block hna hla (k := 0) (by decide)) (by rw [← hn]; exact hi)
  have ht : out ++ ('"' :: (a ++ "\" : [".toList)) ++ ['{'] = out ++ text [quotedName a, .blank ' ', .sign ':', .blank ' ', .sign '[', .sign '{'] := by
    simp [text, Piece.text, quotedName, QChar.text, List.flatMap_map]
  have hcount : countList n (⟨d, out, true, true, false, lo, 0, ln⟩ : Loop B) = some ⟨s2, out, true, true, false, lo, R + 1, a⟩ := by
    simp only [countList, hb, if_true, hln, Loop.move, e1, Option.map_some, answered, e2]
  refine ⟨⟨s3, out ++ text [quotedName a, .blank ' ', .sign ':', .blank ' ', .sign '[', .sign '{'], true, true, false, true, R, a⟩, ?_, rfl, rfl, rfl,
    rfl, rfl, by rw [hn]; exact g3⟩
  simp only [openNode, if_true, Nat.lt_irrefl, gt_iff_lt, if_false, hcount, Option.bind_some, openFirst, Nat.zero_lt_succ, Loop.move, printName_eq, e3,
    Option.map_some, answered]
  rw [← ht]
  rfl

theorem close_plain {n m : Name} {l : Loop B} {db : Db (Leaf B)} (hok : l.ok = true) (hlo : l.listOpen = false)
    (hs : Hist l.db ⟨db.item, db.cur ++ [m]⟩) :
    ∃ l1, closeNode (jsonPrinter pr) n l = some l1 ∧ l1.ok = true ∧ l1.out = l.out ++ text [.sign '}'] ∧ l1.afterBlock = l.afterBlock ∧
      l1.left = l.left ∧ l1.listOpen = false ∧ Hist l1.db db := by
  obtain ⟨d, out, ok, ab, av, lo, left, ln⟩ := l
  simp only at hok hlo hs
  subst hok; subst hlo
  obtain ⟨s1, e1, g1⟩ := hist_back db.item db.cur m hs
  refine ⟨⟨s1, out ++ ['}'], true, ab, av, false, left, ln⟩, ?_, rfl, rfl, rfl, rfl, rfl, g1⟩
  simp only [closeNode, if_true, Bool.false_eq_true, if_false, Loop.put, jsonPrinter, false_and, and_false, Loop.move, e1, Option.map_some, answered]

theorem close_item {n m : Name} {l : Loop B} {db : Db (Leaf B)} (hok : l.ok = true) (hlo : l.listOpen = true)
    (hs : Hist l.db ⟨db.item, db.cur ++ [m]⟩) :
    ∃ l1, closeNode (jsonPrinter pr) n l = some l1 ∧ l1.ok = true ∧
      l1.out = l.out ++ text ([.sign '}'] ++ if l.left = 0 then [.sign ']'] else []) ∧ l1.afterBlock = l.afterBlock ∧
      l1.left = l.left ∧ l1.listOpen = decide (l.left > 0) ∧ Hist l1.db db := by
  obtain ⟨d, out, ok, ab, av, lo, left, ln⟩ := l
  simp only at hok hlo hs
  subst hok; subst hlo
  obtain ⟨s1, e1, g1⟩ := hist_back db.item db.cur m hs
  by_cases h0 : left = 0
  · subst h0
    refine ⟨⟨s1, out ++ ['}'] ++ [']'], true, ab, av, false, 0, ln⟩, ?_, rfl, ?_, rfl, rfl, rfl, g1⟩
    · simp only [closeNode, if_true, Loop.put, jsonPrinter, Option.map_some, and_self, Loop.move, e1, answered]
    · simp [text, Piece.text]
  · refine ⟨⟨s1, out ++ ['}'], true, ab, av, true, left, ln⟩, ?_, rfl, ?_, rfl, rfl, ?_, g1⟩
    · simp only [closeNode, if_true, Loop.put, jsonPrinter, Option.map_some, h0, and_false, if_false, Loop.move, e1, answered]
    · simp [text, Piece.text, h0]
    · rw [decide_eq_true (by simp only; omega)]

theorem step_of_good {n : Name} (h : goodName n = true) : stepName n = true := by
  simp only [goodName, Bool.and_eq_true] at h
  exact h.1

theorem var_eq {n : Name} {v : Leaf B} {l : Loop B} {db : Db (Leaf B)} (hok : l.ok = true) (hs : Hist l.db db)
    (hv : db.item (db.cur ++ [n]) = some (.leaf v)) (hsh : shaped v = true) :
    ∃ l1, printVar (jsonPrinter pr) n l = some l1 ∧ l1.ok = true ∧
      l1.out = l.out ++ text ([quotedName n, .sign ':', .blank ' '] ++ jValue pr v) ∧ (l1.afterBlock || l1.afterVar) = true ∧
      l1.left = l.left ∧ l1.listOpen = l.listOpen ∧ Hist l1.db db := by
  obtain ⟨d, out, ok, ab, av, lo, left, ln⟩ := l
  simp only at hok hs
  subst hok
  obtain ⟨s1, e1, g1⟩ := hist_read hs n
  rw [hv] at e1
  have ht : '"' :: (n ++ "\": ".toList) = text [quotedName n, .sign ':', .blank ' '] := by
    simp [text, Piece.text, quotedName, QChar.text, List.flatMap_map]
  refine ⟨⟨s1, out ++ text ([quotedName n, .sign ':', .blank ' '] ++ jValue pr v), true, false, true, lo, left, ln⟩, ?_, rfl, rfl, rfl, rfl, rfl, g1⟩
  rw [text_append, ← ht]
  simp only [printVar, if_true, e1, jsonPrinter, json_value v hsh]
  simp

theorem left_leaf {prev : Option (Name × Nat)} {n : Name} {v : Leaf B} {r : Forest (Leaf B)} : leftOf prev (.leaf n v r) = 0 := by
  unfold leftOf; split <;> simp [runLen]

theorem left_plain {prev : Option (Name × Nat)} {n : Name} {S r : Forest (Leaf B)} (h : '[' ∉ n) : leftOf prev (.node n S r) = 0 := by
  unfold leftOf
  split
  · rfl
  · rename_i a k
    rw [runLen, if_neg]
    intro e
    exact h (by rw [e]; exact bracket_mem a k)

theorem print_loop (c : Bool) : ∀ (F : Forest (Leaf B)) (fuel i : Nat) (l : Loop B) (db : Db (Leaf B)) (inside first : Bool) (prev : Option (Name × Nat)),
    Hist l.db db → Part db.item db.cur i F → F.distinct = true →
    F.allLeaves (fun n v => goodName n && goodLeaf pr num v) = true → F.allNodes goodName = true → narrow F = true →
    lists c inside prev F → (c = false → prev = none) → Whole db → (c = true → Seen db i prev) →
    l.ok = true → l.left = leftOf prev F → l.listOpen = decide (l.left > 0) → (l.afterBlock || l.afterVar) = !first → F.size < fuel →
    ∃ l', printLoop (jsonPrinter pr) c fuel i l = some l' ∧ l'.ok = true ∧ l'.out = l.out ++ text (pieces pr c first prev F) ∧ Hist l'.db db := by
  intro F
  induction F with
  | nil =>
    intro fuel i l db inside first prev hs hp _ _ _ _ _ _ _ _ hok _ _ _ hf
    obtain ⟨fuel, rfl⟩ : ∃ m, fuel = m + 1 := ⟨fuel - 1, by omega⟩
    have := part_nil hp
    obtain ⟨s0, e0, g0⟩ := hist_size hs
    refine ⟨{ l with db := s0 }, ?_, hok, by simp [pieces, text], g0⟩
    rw [printLoop, e0]
    simp only
    rw [if_neg (by omega)]
  | leaf n v r ih =>
    intro fuel i l db inside first prev hs hp hd hl hn hw hlist hprev hwh hseen hok hleft hlo hfirst hf
    obtain ⟨fuel, rfl⟩ : ∃ m, fuel = m + 1 := ⟨fuel - 1, by omega⟩
    simp only [Forest.distinct, Bool.and_eq_true, decide_eq_true_eq] at hd
    simp only [Forest.allLeaves, Bool.and_eq_true] at hl
    simp only [Forest.allNodes] at hn
    simp only [narrow, Bool.and_eq_true] at hw
    simp only [Forest.size] at hf
    rw [left_leaf] at hleft
    obtain ⟨p1, p2, p3, p4⟩ := part_leaf hp hd.1
    obtain ⟨s0, e0, g0⟩ := hist_size hs
    obtain ⟨s1, e1, g1⟩ := hist_childName g0 p2
    obtain ⟨s2, e2, g2⟩ := hist_missing g1 (step_of_good hl.1.1) (by rw [p4]; rfl)
    have hsep := separate_eq (pr := pr) hok hfirst
    have hv := hl.1.2
    simp only [goodLeaf, Bool.and_eq_true] at hv
    obtain ⟨l3, e3, o3, t3, b3, f3, q3, g3⟩ := var_eq (pr := pr) (n := n) (l := { separate (jsonPrinter pr) l with db := s2 }) (by rw [hsep]; exact hok) g2 p4 hv.1.1
    rw [hsep] at t3 f3 q3
    simp only at t3 f3 q3
    obtain ⟨l4, e4, o4, t4, g4⟩ := ih fuel (i + 1) l3 db inside false none g3 p3 hd.2 (by simpa using hl.2) hn hw.2 (lists_leaf hlist) (fun _ => rfl) hwh
      (fun e => seen_leaf (hseen e) p2 p4) o3 (by rw [f3, hleft]; rfl) (by rw [q3, f3, hlo]) b3 (by omega)
    refine ⟨l4, ?_, o4, ?_, g4⟩
    · rw [printLoop, e0]
      simp only
      rw [if_pos p1, e1]
      simp only [e2, e3, e4]
    · rw [t4, t3, pieces]
      simp [text, List.flatMap_append]
  | node n S r ihS ih =>
    intro fuel i l db inside first prev hs hp hd hl hn hw hlist hprev hwh hseen hok hleft hlo hfirst hf
    obtain ⟨fuel, rfl⟩ : ∃ m, fuel = m + 1 := ⟨fuel - 1, by omega⟩
    have hdd := hd
    simp only [Forest.distinct, Bool.and_eq_true, decide_eq_true_eq] at hd
    simp only [Forest.allLeaves, Bool.and_eq_true] at hl
    simp only [Forest.allNodes, Bool.and_eq_true] at hn
    simp only [narrow, Bool.and_eq_true] at hw
    simp only [Forest.size] at hf
    obtain ⟨p1, p2, p3, p4, p5⟩ := part_node hp hd.1.1
    obtain ⟨s0, e0, g0⟩ := hist_size hs
    obtain ⟨s1, e1, g1⟩ := hist_childName g0 p2
    obtain ⟨s3, e3, g3⟩ := hist_into g1 (step_of_good hn.1.1) p4
    have hsep := separate_eq (pr := pr) hok hfirst
    -- the children and what is after them, given what is before
    have rest : ∀ (inS inR : Bool) (next : Option (Name × Nat)) (l1 : Loop B) (t : List Char) (isOpen : Bool),
        openNode (jsonPrinter pr) c n { separate (jsonPrinter pr) l with db := s3 } = some l1 →
        Opened { separate (jsonPrinter pr) l with db := s3 } l1 t (leftOf next r) isOpen ⟨db.item, db.cur ++ [n]⟩ →
        (isOpen = false → leftOf next r = 0) → lists c inS none S → lists c inR next r → (c = false → next = none) → (c = true → Seen db (i + 1) next) →
        ∃ l', printLoop (jsonPrinter pr) c (fuel + 1) i l = some l' ∧ l'.ok = true ∧
          l'.out = l.out ++ text (comma first) ++ t ++ text (pieces pr c true none S) ++
            text ([.sign '}'] ++ if isOpen = true ∧ leftOf next r = 0 then [.sign ']'] else []) ++ text (pieces pr c false next r) ∧ Hist l'.db db := by
      intro inS inR next l1 t isOpen h1 ho hz hS hR hnx hsn
      obtain ⟨l2, e5, o5, t5, g5⟩ := ihS fuel 0 (Loop.new l1.db) _ inS true none ho.hist p5 hd.1.2 hl.1 hn.1.2 hw.1.2 hS (fun _ => rfl)
        (whole_child hp hd.1.2 hw.1.2) (fun _ => seen_new _) rfl rfl rfl rfl (by omega)
      have hout : l1.out = l.out ++ text (comma first) ++ t := by
        rw [ho.out, hsep]
      have close : ∃ l3, closeNode (jsonPrinter pr) n { l1 with db := l2.db, out := l1.out ++ l2.out, ok := l2.ok } = some l3 ∧ l3.ok = true ∧
          l3.out = l1.out ++ l2.out ++ text ([.sign '}'] ++ if isOpen = true ∧ leftOf next r = 0 then [.sign ']'] else []) ∧ l3.afterBlock = true ∧
          l3.left = leftOf next r ∧ l3.listOpen = decide (l3.left > 0) ∧ Hist l3.db db := by
        cases hio : isOpen with
        | false =>
          obtain ⟨l3, a1, a2, a3, a4, a5, a6, a7⟩ := close_plain (pr := pr) (n := n) (m := n) (db := db)
            (l := { l1 with db := l2.db, out := l1.out ++ l2.out, ok := l2.ok }) o5 (by rw [← hio]; exact ho.listOpen) g5
          refine ⟨l3, a1, a2, ?_, a4.trans ho.afterBlock, a5.trans ho.left, ?_, a7⟩
          · rw [a3]; simp
          · rw [a6, a5, ho.left, hz hio]; rfl
        | true =>
          obtain ⟨l3, a1, a2, a3, a4, a5, a6, a7⟩ := close_item (pr := pr) (n := n) (m := n) (db := db)
            (l := { l1 with db := l2.db, out := l1.out ++ l2.out, ok := l2.ok }) o5 (by rw [← hio]; exact ho.listOpen) g5
          refine ⟨l3, a1, a2, ?_, a4.trans ho.afterBlock, a5.trans ho.left, ?_, a7⟩
          · rw [a3]; simp [ho.left]
          · rw [a6, a5]
      obtain ⟨l3, a1, a2, a3, a4, a5, a6, a7⟩ := close
      obtain ⟨l4, e7, o7, t7, g7⟩ := ih fuel (i + 1) l3 db inR false next a7 p3 hd.2 hl.2 hn.2 hw.2 hR hnx hwh hsn a2 a5 a6 (by simp [a4]) (by omega)
      refine ⟨l4, ?_, o7, ?_, g7⟩
      · rw [printLoop, e0]
        simp only
        rw [if_pos p1, e1]
        simp only [e3, h1, ho.ok, if_true, e5, Option.map_some, a1, e7]
      · rw [t7, a3, hout, t5]
        simp [Loop.new]
    have hok' : ({ separate (jsonPrinter pr) l with db := s3 } : Loop B).ok = true := by rw [hsep]; exact hok
    have hleft' : ({ separate (jsonPrinter pr) l with db := s3 } : Loop B).left = leftOf prev (.node n S r) := by rw [hsep]; exact hleft
    have hlo' : ({ separate (jsonPrinter pr) l with db := s3 } : Loop B).listOpen = decide (leftOf prev (.node n S r) > 0) := by
      rw [hsep]; simp only [hlo, hleft]
    rcases lists_node hlist with ⟨hi, hname, hblock, hS, hR⟩ | ⟨hi, hS, hR⟩
    · have hc := item_true hi
      have hfree : '[' ∉ before n := by simpa using before_free n
      subst hc
      have hsn := hseen rfl
      have hnext := seen_item hsn p2 hfree hblock
      simp only [listName, Bool.and_eq_true, decide_eq_true_eq] at hname
      have hlr : leftOf (some (before n, index prev (before n) + 1)) r = runLen (before n) (index prev (before n) + 1) r := rfl
      by_cases h0 : index prev (before n) = 0
      · have hz : leftOf prev (.node n S r) = 0 := by
          unfold leftOf
          split
          · rfl
          · rename_i b k
            rw [runLen, if_neg]
            intro e
            obtain ⟨q1, q2, _⟩ := hsn.prev b k rfl
            obtain ⟨e1, e2⟩ := block_inj hfree q1 (hblock.symm.trans e)
            rw [h0] at e2
            exact q2 e2.symm
        rw [hz] at hleft'
        rw [h0] at hblock hlr hnext
        have hRR := hR rfl
        rw [h0] at hRR
        have hsize := first_size hwh hsn hp hdd hfree hblock hRR
        have hle : runLen (before n) 1 r ≤ (children db.item db.cur).length := by
          have h1 := runLen_le (before n) r 1
          have h2 := congrArg List.length p3.names
          rw [List.length_drop] at h2
          omega
        obtain ⟨l1, b1, b2⟩ := open_first (pr := pr) (l := { separate (jsonPrinter pr) l with db := s3 }) hblock hfree hname.1.1 hname.1.2 hok' hleft' g3 p4
          hsize hle hwh.few
        obtain ⟨l', r1, r2, r3, r4⟩ := rest true inside (some (before n, 0 + 1)) l1 _ true b1 b2 (fun e => by cases e) hS (fun _ => hRR) (fun e => by cases e)
          (fun _ => hnext)
        refine ⟨l', r1, r2, ?_, r4⟩
        rw [r3, pieces, hi, if_pos rfl, h0, if_pos rfl, hlr]
        by_cases hq : runLen (before n) (0 + 1) r = 0
        · simp only [hq, and_self, if_true]
          simp [text_append, ← text_append]
        · simp only [hq, and_false, if_false]
          simp [text_append, ← text_append]
      · have hp' := index_some h0
        have hz : leftOf prev (.node n S r) = runLen (before n) (index prev (before n) + 1) r + 1 := by
          rw [hp']
          simp only [leftOf, index, if_true]
          rw [runLen]
          rw [if_pos]
          exact hblock
        rw [hz] at hleft' hlo'
        obtain ⟨l1, b1, b2⟩ := open_next (pr := pr) (n := n) (l := { separate (jsonPrinter pr) l with db := s3 }) hleft' (by rw [hlo']; simp) g3
        obtain ⟨l', r1, r2, r3, r4⟩ := rest true inside (some (before n, index prev (before n) + 1)) l1 _ true b1 b2 (fun e => by cases e) hS hR
          (fun e => by cases e) (fun _ => hnext)
        refine ⟨l', r1, r2, ?_, r4⟩
        rw [r3, pieces, hi, if_pos rfl, if_neg h0, hlr]
        by_cases hq : runLen (before n) (index prev (before n) + 1) r = 0
        · simp only [hq, and_self, if_true]
          simp [text_append, ← text_append]
        · simp only [hq, and_false, if_false]
          simp [text_append, ← text_append]
    · have hz : leftOf prev (.node n S r) = 0 := by
        cases hc : c with
        | false => rw [hprev hc]; rfl
        | true =>
          subst hc
          exact left_plain (by simpa [item] using hi)
      rw [hz] at hleft' hlo'
      obtain ⟨l1, b1, b2⟩ := open_plain (pr := pr) hi hok' hleft' hlo' g3
      obtain ⟨l', r1, r2, r3, r4⟩ := rest inside inside none l1 _ false b1 b2 (fun _ => rfl) hS hR (fun _ => rfl) (by
        intro hc
        subst hc
        exact seen_plain (hseen rfl) p2 (by simpa [item] using hi))
      refine ⟨l', r1, r2, ?_, r4⟩
      rw [r3, pieces, hi]
      simp [text, List.flatMap_append]

end Verif.Json
