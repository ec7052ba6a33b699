import Verif.Model.MathParser
import Verif.Spec.MathExpr
/-! Running the parser on the words of an expression. -/
namespace Verif.Math
open Verif.MathExpr

/-- `MathExpressionParser.cpp:95-119`: the numbers of the terminals. -/
def opTok : BinOp → Tok
  | .or => ⟨5, "||"⟩ | .and => ⟨6, "&&"⟩ | .xor => ⟨7, "^"⟩
  | .gt => ⟨8, ">"⟩ | .lt => ⟨9, "<"⟩ | .ge => ⟨10, ">="⟩ | .le => ⟨11, "<="⟩ | .eq => ⟨12, "=="⟩ | .ne => ⟨13, "!="⟩
  | .add => ⟨14, "+"⟩ | .sub => ⟨15, "-"⟩ | .mul => ⟨16, "*"⟩ | .div => ⟨17, "/"⟩

/-- The token of a word. -/
def tok : Word → Tok
  | .str s => ⟨1, s⟩
  | .num s => ⟨21, s⟩
  | .op o => opTok o
  | .bang => ⟨18, "!"⟩
  | .assign => ⟨2, "="⟩
  | .semi => ⟨3, ";"⟩
  | .comma => ⟨4, ","⟩
  | .lp => ⟨19, "("⟩
  | .rp => ⟨20, ")"⟩

/-- The parser about to process the symbols `syms` on the tokens `ts`. -/
def at_ (syms : List Nat) (ts : List Tok) (ops casts : List String) (name : String) (out : List Line) : PS :=
  { symbol := syms.headD 0, stack := syms.tail, token := (ts.headD eof).ty, newToken := (ts.headD eof).ty
    cur := ts.headD eof, rest := ts.tail, ops := ops, casts := casts, name := name, out := out
    isEOF := false, isError := false }

set_option maxRecDepth 8000 in
/-- The end of the input. -/
theorem end_inner (cap m : Nat) (name : String) (out : List Line) :
    inner cap (m + 3) (at_ [39] [] [] [] name out) =
      .ok { at_ [] [] [] [] name out with token := 22, newToken := 22, isEOF := true } := by rfl

theorem end_empty (cap m : Nat) (name : String) (out : List Line) :
    inner cap (m + 3) (at_ [23] [] [] [] name out) =
      .ok { at_ [] [] [] [] name out with token := 22, newToken := 22, isEOF := true } := by rfl

/-- Some steps of the inner loop lead from `s` to `s'`. -/
def Runs (cap : Nat) (s s' : PS) : Prop := ∃ n, ∀ m, 4 ≤ m → inner cap (m + n) s = inner cap m s'

theorem Runs.refl (cap : Nat) (s : PS) : Runs cap s s := ⟨0, fun _ _ => rfl⟩

theorem Runs.trans {cap : Nat} {a b c : PS} (h : Runs cap a b) (h' : Runs cap b c) : Runs cap a c := by
  obtain ⟨n, h⟩ := h
  obtain ⟨n', h'⟩ := h'
  refine ⟨n' + n, fun m hm => ?_⟩
  rw [← Nat.add_assoc, h (m + n') (by omega), h' m hm]

theorem runs_step {cap : Nat} {s s' : PS} (h0 : 0 < s.symbol) (h1 : s.isError = false)
    (h : ∀ fuel, 4 ≤ fuel → process cap fuel s = .ok s') : Runs cap s (after s') := by
  refine ⟨1, fun m hm => ?_⟩
  show inner cap (m + 1) s = _
  simp only [inner, h0, h1, and_self, if_true, h m hm]

section
variable {cap : Nat} {syms : List Nat} {ts : List Tok} {ops casts : List String} {name : String} {out : List Line}

theorem run_action {a : Nat} (ha : 45 ≤ a) {ops' casts' : List String} {name' : String} {out' : List Line}
    (h : execute (a - 44) (at_ (a :: syms) ts ops casts name out) = at_ (a :: syms) ts ops' casts' name' out') :
    Runs cap (at_ (a :: syms) ts ops casts name out) (at_ syms ts ops' casts' name' out') := by
  have := runs_step (cap := cap) (s := at_ (a :: syms) ts ops casts name out)
    (s' := at_ (a :: syms) ts ops' casts' name' out') (by show 0 < a; omega) rfl (by
      intro fuel _
      unfold process
      have : startAction ≤ (at_ (a :: syms) ts ops casts name out).symbol := ha
      rw [if_pos this, ← h]
      rfl)
  have h2 : after (at_ (a :: syms) ts ops' casts' name' out') = at_ syms ts ops' casts' name' out' := by
    unfold after
    rw [if_neg (by simp [at_])]
    rfl
  rw [h2] at this
  exact this

theorem run_match {t : Tok} (h0 : 0 < t.ty) (h1 : t.ty < 23) :
    Runs cap (at_ (t.ty :: syms) (t :: ts) ops casts name out) (at_ syms ts ops casts name out) := by
  have := runs_step (cap := cap) (s := at_ (t.ty :: syms) (t :: ts) ops casts name out)
    (s' := { next (at_ (t.ty :: syms) (t :: ts) ops casts name out) with
      token := (ts.headD eof).ty, newToken := (ts.headD eof).ty }) h0 rfl (by
      intro fuel _
      unfold process
      have a1 : ¬ startAction ≤ (at_ (t.ty :: syms) (t :: ts) ops casts name out).symbol := by
        show ¬ 45 ≤ t.ty; omega
      have a2 : ¬ startSymbol ≤ (at_ (t.ty :: syms) (t :: ts) ops casts name out).symbol := by
        show ¬ 23 ≤ t.ty; omega
      have a3 : (at_ (t.ty :: syms) (t :: ts) ops casts name out).symbol =
          (at_ (t.ty :: syms) (t :: ts) ops casts name out).token := rfl
      rw [if_neg a1, if_neg a2, if_pos a3]
      rfl)
  have h2 : after { next (at_ (t.ty :: syms) (t :: ts) ops casts name out) with
      token := (ts.headD eof).ty, newToken := (ts.headD eof).ty } = at_ syms ts ops casts name out := by
    unfold after
    rw [if_neg (by simp)]
    rfl
  rw [h2] at this
  exact this

theorem push_all (rhs : List Nat) : ∀ st : List Nat, st.length + rhs.length ≤ cap →
    rhs.foldr (push cap) st = rhs ++ st := by
  induction rhs with
  | nil => intro st _; rfl
  | cons x xs ih =>
    intro st h
    rw [List.length_cons] at h
    rw [List.foldr_cons, ih st (by omega)]
    unfold push
    rw [if_pos (by rw [List.length_append]; omega)]
    rfl

theorem run_prod {A entry : Nat} {rhs : List Nat} (hA : 23 ≤ A) (hA' : A < 45)
    (hl : ∀ fuel, 4 ≤ fuel → lookup fuel A (ts.headD eof).ty ts.tail = .ok entry) (he : 0 < entry)
    (hp : production? entry = some (A, rhs)) (room : syms.length + rhs.length ≤ cap) :
    Runs cap (at_ (A :: syms) ts ops casts name out) (at_ (rhs ++ syms) ts ops casts name out) := by
  have := runs_step (cap := cap) (s := at_ (A :: syms) ts ops casts name out)
    (s' := { at_ (A :: syms) ts ops casts name out with stack := rhs ++ syms }) (by show 0 < A; omega) rfl (by
      intro fuel hf
      unfold process
      have a1 : ¬ startAction ≤ (at_ (A :: syms) ts ops casts name out).symbol := by show ¬ 45 ≤ A; omega
      have a2 : startSymbol ≤ (at_ (A :: syms) ts ops casts name out).symbol := hA
      rw [if_neg a1, if_pos a2]
      have : lookup fuel (at_ (A :: syms) ts ops casts name out).symbol (at_ (A :: syms) ts ops casts name out).token
          (at_ (A :: syms) ts ops casts name out).rest = .ok entry := hl fuel hf
      rw [this]
      simp only [he, if_true, hp]
      rw [if_pos (by rfl)]
      have : rhs.foldr (push cap) (at_ (A :: syms) ts ops casts name out).stack = rhs ++ syms := push_all rhs syms room
      rw [this])
  have h2 : after { at_ (A :: syms) ts ops casts name out with stack := rhs ++ syms } =
      at_ (rhs ++ syms) ts ops casts name out := by
    unfold after
    rw [if_neg (by simp [at_])]
    rfl
  rw [h2] at this
  exact this
end

/-! ## The tables -/

attribute [local irreducible] production productionRow parseArray parseRow conflict conflictRow conf entry0

theorem resolve_succ (rest : List Tok) (fuel level entry : Nat) : resolve rest (fuel + 1) level entry =
    if startConflict ≤ entry then
      match conf entry (peek rest level) with
      | none => .oob
      | some e => resolve rest fuel (level + 1) e
    else .ok entry := by rfl

theorem resolve_plain {rest : List Tok} {f level e : Nat} (h : e < 46) (hf : 1 ≤ f) : resolve rest f level e = .ok e := by
  obtain ⟨f, rfl⟩ : ∃ g, f = g + 1 := ⟨f - 1, by omega⟩
  rw [resolve_succ, if_neg (by show ¬ 46 ≤ e; omega)]

theorem resolve_conf {rest : List Tok} {f level e e' : Nat} (h : 46 ≤ e) (hc : conf e (peek rest level) = some e') :
    resolve rest (f + 1) level e = resolve rest f (level + 1) e' := by
  rw [resolve_succ, if_pos (show startConflict ≤ e from h), hc]

theorem lookup_eq {fuel A ty e : Nat} {rest : List Tok} (h : entry0 A ty = some e) :
    lookup fuel A ty rest = resolve rest fuel 0 e := by
  unfold lookup
  rw [h]

theorem lookup_plain {A ty e : Nat} {rest : List Tok} (h : entry0 A ty = some e) (he : e < 46) :
    ∀ fuel, 4 ≤ fuel → lookup fuel A ty rest = .ok e := by
  intro fuel hf
  rw [lookup_eq h, resolve_plain he (by omega)]

theorem lookup_conf1 {A ty e e1 : Nat} {rest : List Tok} (h : entry0 A ty = some e) (he : 46 ≤ e)
    (h1 : conf e (peek rest 0) = some e1) (he1 : e1 < 46) : ∀ fuel, 4 ≤ fuel → lookup fuel A ty rest = .ok e1 := by
  intro fuel hf
  obtain ⟨g, rfl⟩ : ∃ g, fuel = g + 1 := ⟨fuel - 1, by omega⟩
  rw [lookup_eq h, resolve_conf he h1, resolve_plain he1 (by omega)]

theorem lookup_conf2 {A ty e e1 e2 : Nat} {rest : List Tok} (h : entry0 A ty = some e) (he : 46 ≤ e)
    (h1 : conf e (peek rest 0) = some e1) (he1 : 46 ≤ e1) (h2 : conf e1 (peek rest 1) = some e2) (he2 : e2 < 46) :
    ∀ fuel, 4 ≤ fuel → lookup fuel A ty rest = .ok e2 := by
  intro fuel hf
  obtain ⟨g, rfl⟩ : ∃ g, fuel = g + 2 := ⟨fuel - 2, by omega⟩
  rw [lookup_eq h, resolve_conf he h1, resolve_conf he1 h2, resolve_plain he2 (by omega)]

theorem lookup_conf3 {A ty e e1 e2 e3 : Nat} {rest : List Tok} (h : entry0 A ty = some e) (he : 46 ≤ e)
    (h1 : conf e (peek rest 0) = some e1) (he1 : 46 ≤ e1) (h2 : conf e1 (peek rest 1) = some e2) (he2 : 46 ≤ e2)
    (h3 : conf e2 (peek rest 2) = some e3) (he3 : e3 < 46) : ∀ fuel, 4 ≤ fuel → lookup fuel A ty rest = .ok e3 := by
  intro fuel hf
  obtain ⟨g, rfl⟩ : ∃ g, fuel = g + 3 := ⟨fuel - 3, by omega⟩
  rw [lookup_eq h, resolve_conf he h1, resolve_conf he1 h2, resolve_conf he2 h3, resolve_plain he3 (by omega)]

/-- Last operator (by number) that may follow an expression of the level. -/
def lastOp : Level → Nat
  | .logic => 7
  | .comparison => 13
  | .sum => 15
  | _ => 17

/-- Tokens that may follow an expression of the level. -/
def okAfter (k : Level) (t : Nat) : Bool :=
  t == 3 || t == 4 || t == 20 || (decide (5 ≤ t) && decide (t ≤ lastOp k))

def nt : Level → Nat
  | .logic => 26 | .comparison => 28 | .sum => 30 | .product => 32 | .unary => 34 | .cast => 36 | .call => 37
  | .primary => 38

def tailOf : Level → List Nat
  | .logic => [40] | .comparison => [41] | .sum => [42] | .product => [43] | _ => []

/-- Room needed on the symbol stack. -/
def need (k : Level) (d : Nat) : Nat :=
  13 * d + match k with
    | .logic => 15 | .comparison => 13 | .sum => 11 | .product => 9 | .unary => 7 | .cast => 6 | .call => 5
    | .primary => 5

/-- Tokens that may start an expression of the level. -/
def firsts : Level → List Nat
  | .cast => [1, 19, 21]
  | .call => [1, 19]
  | .primary => [1, 19]
  | _ => [1, 14, 15, 18, 19, 21]

theorem okAfter_lt {k : Level} {t : Nat} (h : okAfter k t = true) : t < 23 := by
  unfold okAfter at h
  simp only [Bool.or_eq_true, beq_iff_eq, Bool.and_eq_true, decide_eq_true_eq] at h
  have : lastOp k ≤ 17 := by cases k <;> decide
  omega

theorem okAfter_next {k : Level} {t : Nat} (h : okAfter k t = true) : okAfter k.next t = true := by
  unfold okAfter at h ⊢
  simp only [Bool.or_eq_true, beq_iff_eq, Bool.and_eq_true, decide_eq_true_eq] at h ⊢
  have : lastOp k ≤ lastOp k.next := by cases k <;> decide
  omega

/-- Facts about the tables, for every token that may come. -/
theorem tails_end : ∀ t < 23, (okAfter .logic t = true → entry0 41 t = some 39) ∧
    (okAfter .comparison t = true → entry0 42 t = some 41) ∧ (okAfter .sum t = true → entry0 43 t = some 43) := by
  decide +kernel

theorem logic_end : ∀ t < 23, (t = 3 ∨ t = 4 ∨ t = 20) → entry0 40 t = some 37 := by decide +kernel

theorem starts : ∀ t ∈ [1, 14, 15, 18, 19, 21], entry0 26 t = some 5 ∧ entry0 28 t = some 9 ∧ entry0 30 t = some 16 ∧
    entry0 32 t = some 19 := by decide +kernel

theorem starts_unary : ∀ t ∈ [1, 19, 21], entry0 34 t = some 22 := by decide +kernel

theorem var_end : ∀ t < 23, okAfter .call t = true → conf 47 t = some 30 := by decide +kernel
theorem paren_end : ∀ t < 23, okAfter .call t = true → conf 49 t = some 26 := by decide +kernel
theorem paren_second : ∀ t < 23, (5 ≤ t ∧ t ≤ 17 ∨ t = 19) → conf 48 t = some 26 := by decide +kernel
theorem paren_first : ∀ t ∈ [14, 15, 18, 19, 21], conf 46 t = some 26 := by decide +kernel

/-! ## Shape of the words of an expression -/

theorem first_tok {k : Level} {ws : List Word} {e : Expr} {d : Nat} (h : Reads k ws e d) :
    ∃ w ws', ws = w :: ws' ∧ (tok w).ty ∈ firsts k := by
  match h with
  | .bin o hl hr =>
    obtain ⟨w, ws', rfl, h2⟩ := first_tok hl
    exact ⟨w, _, rfl, h2⟩
  | .up k h' =>
    obtain ⟨w, ws', rfl, h2⟩ := first_tok h'
    refine ⟨w, ws', rfl, ?_⟩
    revert h2
    generalize (tok w).ty = t
    cases k <;> simp [firsts, Level.next] <;> intro h <;> omega
  | .neg h' => exact ⟨_, _, rfl, by decide⟩
  | .pos h' => exact ⟨_, _, rfl, by decide⟩
  | .not h' => exact ⟨_, _, rfl, by decide⟩
  | .cast t h' => exact ⟨_, _, rfl, by decide⟩
  | .numOf t n => exact ⟨_, _, rfl, by decide⟩
  | .num n => exact ⟨_, _, rfl, by simp [tok, firsts]⟩
  | .call f hf h' => exact ⟨_, _, rfl, by simp [tok, firsts]⟩
  | .paren h' => exact ⟨_, _, rfl, by decide⟩
  | .var x => exact ⟨_, _, rfl, by simp [tok, firsts]⟩

/-- How an expression may begin. -/
inductive Shape : List Word → Prop
  | name (x : String) : Shape [.str x]
  | more (x : String) (w : Word) (ws : List Word) (h : 5 ≤ (tok w).ty ∧ (tok w).ty ≤ 17 ∨ (tok w).ty = 19) :
      Shape (.str x :: w :: ws)
  | other (w : Word) (ws : List Word) (h : (tok w).ty ∈ [14, 15, 18, 19, 21]) : Shape (w :: ws)

theorem opTok_range (o : BinOp) : 5 ≤ (tok (.op o)).ty ∧ (tok (.op o)).ty ≤ 17 := by cases o <;> decide

theorem shape {k : Level} {ws : List Word} {e : Expr} {d : Nat} (h : Reads k ws e d) : Shape ws := by
  match h with
  | .bin o hl hr =>
    cases shape hl with
    | name x => exact .more x _ _ (.inl (opTok_range o))
    | more x w ws h => exact .more x w _ h
    | other w ws h => exact .other w _ h
  | .up k h' => exact shape h'
  | .neg h' => exact .other _ _ (by decide)
  | .pos h' => exact .other _ _ (by decide)
  | .not h' => exact .other _ _ (by decide)
  | .cast t h' => exact .other _ _ (by decide)
  | .numOf t n => exact .other _ _ (by decide)
  | .num n => exact .other _ _ (by simp [tok])
  | .call f hf h' => exact .more _ _ _ (.inr rfl)
  | .paren h' => exact .other _ _ (by decide)
  | .var x => exact .name x

/-! ## The expressions -/

theorem upperChar_eq (c : Char) : upperChar c = Char.toUpper c := by
  unfold upperChar Char.toUpper
  have e1 : 'a'.toNat = 97 := rfl
  have e2 : 'z'.toNat = 122 := rfl
  by_cases h : 97 ≤ c.toNat ∧ c.toNat ≤ 122
  · rw [e1, e2, if_pos h]
    have h' : 'a'.val ≤ c.val ∧ c.val ≤ 'z'.val :=
      ⟨by rw [UInt32.le_iff_toNat_le]; exact h.1, by rw [UInt32.le_iff_toNat_le]; exact h.2⟩
    rw [dif_pos h']
    apply Char.ext
    apply UInt32.toNat.inj
    have h4 : (Char.ofNat (c.toNat - 32)).toNat = c.toNat - 32 := by
      unfold Char.ofNat
      rw [dif_pos (by left; omega)]
      rfl
    have h3 : c.val.toNat = c.toNat := rfl
    show (Char.ofNat (c.toNat - 32)).toNat = _
    rw [h4, UInt32.toNat_add]
    have : ('A'.val - 'a'.val).toNat = 2^32 - 32 := by decide
    rw [this]
    omega
  · rw [e1, e2, if_neg h]
    have h' : ¬ ('a'.val ≤ c.val ∧ c.val ≤ 'z'.val) := by
      rintro ⟨a, b⟩
      rw [UInt32.le_iff_toNat_le] at a
      rw [UInt32.le_iff_toNat_le] at b
      exact h ⟨a, b⟩
    rw [dif_neg h']

theorem upper_eq (s : String) : upper s = upperCase s := by
  have : upperChar = Char.toUpper := funext upperChar_eq
  unfold upper upperCase
  rw [this]

theorem opFormat_op (o : BinOp) : opFormat (opTok o).data = o.name := by cases o <;> decide

theorem opFormat_name {f : String} (h : f ∉ opTexts) : opFormat f = upperCase f := by
  simp only [opTexts, List.mem_cons, List.not_mem_nil, or_false, not_or] at h
  obtain ⟨h1, h2, h3, h4, h5, h6, h7, h8, h9, h10, h11, h12, h13, h14⟩ := h
  simp only [opFormat, h1, h2, h3, h4, h5, h6, h7, h8, h9, h10, h11, h12, h13, h14, if_false, upper_eq]

/-- The parser reads an expression of the level and emits its notation. -/
def Good (cap : Nat) (k : Level) (ws : List Word) (e : Expr) (d : Nat) : Prop :=
  ∀ (syms : List Nat) (la : Tok) (rest : List Tok) (ops casts : List String) (name : String) (out : List Line),
    okAfter k la.ty = true → syms.length + need k d ≤ cap →
    Runs cap (at_ (nt k :: syms) (ws.map tok ++ la :: rest) ops casts name out)
      (at_ (tailOf k ++ syms) (la :: rest) ops casts name (out ++ rpn e))

def GoodArgs (cap : Nat) (ws : List Word) (es : List Expr) (d : Nat) : Prop :=
  ∀ (syms : List Nat) (rest : List Tok) (ops casts : List String) (name : String) (out : List Line),
    syms.length + 1 + need .logic d ≤ cap →
    Runs cap (at_ (26 :: 44 :: syms) (ws.map tok ++ tok .rp :: rest) ops casts name out)
      (at_ syms (tok .rp :: rest) ops casts name (out ++ rpnArgs es))

/-- A production chosen by the current token alone. -/
theorem run_plain {cap : Nat} {syms : List Nat} {ts : List Tok} {ops casts : List String} {name : String}
    {out : List Line} (A entry : Nat) (rhs : List Nat) (t : Nat) (ht : (ts.headD eof).ty = t)
    (h : entry0 A t = some entry) (hp : production? entry = some (A, rhs)) (hA : 23 ≤ A) (hA' : A < 45)
    (he : 0 < entry) (he' : entry < 46) (room : syms.length + rhs.length ≤ cap) :
    Runs cap (at_ (A :: syms) ts ops casts name out) (at_ (rhs ++ syms) ts ops casts name out) :=
  run_prod hA hA' (by rw [ht]; exact lookup_plain h he') he hp room

section
variable {cap : Nat} {syms : List Nat} {ts : List Tok} {ops casts : List String} {name : String} {out : List Line}

theorem run_pushOp (t : Tok) :
    Runs cap (at_ (47 :: syms) (t :: ts) ops casts name out) (at_ syms (t :: ts) (t.data :: ops) casts name out) :=
  run_action (by decide) rfl

theorem run_popOp (o : String) :
    Runs cap (at_ (48 :: syms) ts (o :: ops) casts name out) (at_ syms ts ops casts name (out ++ [[opFormat o]])) :=
  run_action (by decide) rfl

theorem run_word (w : Word) (n : Nat) (hn : (tok w).ty = n) (h0 : 0 < n) (h1 : n < 23) :
    Runs cap (at_ (n :: syms) (tok w :: ts) ops casts name out) (at_ syms ts ops casts name out) := by
  subst hn
  exact run_match h0 h1

theorem tail_logic {t : Tok} (ht : t.ty = 3 ∨ t.ty = 4 ∨ t.ty = 20) (room : syms.length ≤ cap) :
    Runs cap (at_ (40 :: syms) (t :: ts) ops casts name out) (at_ syms (t :: ts) ops casts name out) :=
  run_plain 40 37 [] t.ty rfl (logic_end t.ty (by omega) ht) (by decide +kernel) (by decide) (by decide) (by decide)
    (by decide) room

/-- The tail of the next level ends where an expression of level `k` may end. -/
theorem tail_end {k : Level} {t : Tok} (ht : okAfter k t.ty = true) (room : syms.length ≤ cap) :
    Runs cap (at_ (tailOf k.next ++ syms) (t :: ts) ops casts name out) (at_ syms (t :: ts) ops casts name out) := by
  have hlt := okAfter_lt ht
  obtain ⟨h1, h2, h3⟩ := tails_end t.ty hlt
  cases k with
  | logic =>
    exact run_plain 41 39 [] t.ty rfl (h1 ht) (by decide +kernel) (by decide) (by decide) (by decide) (by decide) room
  | comparison =>
    exact run_plain 42 41 [] t.ty rfl (h2 ht) (by decide +kernel) (by decide) (by decide) (by decide) (by decide) room
  | sum =>
    exact run_plain 43 43 [] t.ty rfl (h3 ht) (by decide +kernel) (by decide) (by decide) (by decide) (by decide) room
  | product => exact .refl _ _
  | unary => exact .refl _ _
  | cast => exact .refl _ _
  | call => exact .refl _ _
  | primary => exact .refl _ _
end

/-- Symbol of the tail of a level with operators, of its operators, and the entries of the tables. -/
def tailSym (o : BinOp) : Nat :=
  match o.level with | .logic => 40 | .comparison => 41 | .sum => 42 | _ => 43
def opSym (o : BinOp) : Nat :=
  match o.level with | .logic => 27 | .comparison => 29 | .sum => 31 | _ => 33
def tailEntry (o : BinOp) : Nat :=
  match o.level with | .logic => 36 | .comparison => 38 | .sum => 40 | _ => 42
def opEntry : BinOp → Nat
  | .or => 6 | .and => 7 | .xor => 8 | .gt => 10 | .lt => 11 | .ge => 12 | .le => 13 | .eq => 14 | .ne => 15
  | .add => 17 | .sub => 18 | .mul => 20 | .div => 21

theorem op_tables (o : BinOp) : entry0 (tailSym o) (opTok o).ty = some (tailEntry o) ∧
    production? (tailEntry o) = some (tailSym o, [47, opSym o, nt o.level.next, 48, tailSym o]) ∧
    entry0 (opSym o) (opTok o).ty = some (opEntry o) ∧
    production? (opEntry o) = some (opSym o, [(opTok o).ty]) ∧
    23 ≤ tailSym o ∧ tailSym o < 45 ∧ 23 ≤ opSym o ∧ opSym o < 45 ∧ 0 < tailEntry o ∧ tailEntry o < 46 ∧
    0 < opEntry o ∧ opEntry o < 46 ∧ tailOf o.level = [tailSym o] ∧ okAfter o.level (opTok o).ty = true := by
  cases o <;> decide +kernel

theorem need_bin (o : BinOp) (d : Nat) : need o.level.next d + 2 ≤ need o.level d ∧ 5 ≤ need o.level d := by
  cases o <;> simp [need, BinOp.level, Level.next] <;> omega

theorem need_max {k : Level} {a b : Nat} : need k a ≤ need k (max a b) ∧ need k b ≤ need k (max a b) := by
  unfold need
  omega

theorem good_bin {cap : Nat} (o : BinOp) {ls rs : List Word} {l r : Expr} {dl dr : Nat}
    (hl : Good cap o.level ls l dl) (hr : Good cap o.level.next rs r dr) :
    Good cap o.level (ls ++ .op o :: rs) (.bin o l r) (max dl dr) := by
  intro syms la rest ops casts name out hla room
  obtain ⟨t1, t2, t3, t4, t5, t6, t7, t8, t9, t10, t11, t12, t13, t14⟩ := op_tables o
  have hn := need_bin o (max dl dr)
  have hm1 := (need_max (k := o.level) (a := dl) (b := dr)).1
  have hm2 := (need_max (k := o.level.next) (a := dl) (b := dr)).2
  have e : (ls ++ .op o :: rs).map tok ++ la :: rest = ls.map tok ++ opTok o :: (rs.map tok ++ la :: rest) := by
    simp [tok]
  rw [e, t13]
  have h1 := hl syms (opTok o) (rs.map tok ++ la :: rest) ops casts name out t14 (by omega)
  rw [t13] at h1
  refine h1.trans ?_
  refine (run_plain (tailSym o) (tailEntry o) _ (opTok o).ty rfl t1 t2 t5 t6 t9 t10 (by
    show syms.length + 5 ≤ cap; omega)).trans ?_
  refine (run_pushOp _).trans ?_
  refine (run_plain (opSym o) (opEntry o) _ (opTok o).ty rfl t3 t4 t7 t8 t11 t12 (by
    simp; omega)).trans ?_
  refine (run_word (.op o) _ rfl (by have := opTok_range o; show 0 < (tok (.op o)).ty; omega)
    (by have := opTok_range o; show (tok (.op o)).ty < 23; omega)).trans ?_
  have h2 := hr (48 :: tailSym o :: syms) la rest ((opTok o).data :: ops) casts name (out ++ rpn l)
    (okAfter_next hla) (by simp only [List.length_cons]; omega)
  refine h2.trans ?_
  refine (tail_end hla (by simp only [List.length_cons]; omega)).trans ?_
  refine (run_popOp _).trans ?_
  rw [opFormat_op]
  have : rpn (.bin o l r) = rpn l ++ rpn r ++ [[o.name]] := by rw [rpn]
  rw [this, ← List.append_assoc, ← List.append_assoc]
  exact .refl _ _

/-- Levels with operators: one operand. -/
theorem good_up_op {cap : Nat} {k : Level} (hk : k = .logic ∨ k = .comparison ∨ k = .sum ∨ k = .product)
    {ws : List Word} {e : Expr} {d : Nat} (hr : Reads k.next ws e d) (h : Good cap k.next ws e d) :
    Good cap k ws e d := by
  intro syms la rest ops casts name out hla room
  obtain ⟨w, ws', rfl, hw⟩ := first_tok hr
  have hw' : (tok w).ty ∈ [1, 14, 15, 18, 19, 21] := by
    rcases hk with rfl | rfl | rfl | rfl <;> exact hw
  obtain ⟨s1, s2, s3, s4⟩ := starts _ hw'
  have hn : need k.next d + 2 ≤ need k d ∧ 5 ≤ need k d := by
    rcases hk with rfl | rfl | rfl | rfl <;> simp [need, Level.next] <;> omega
  have key : Runs cap (at_ (nt k :: syms) ((w :: ws').map tok ++ la :: rest) ops casts name out)
      (at_ (nt k.next :: (tailOf k ++ syms)) ((w :: ws').map tok ++ la :: rest) ops casts name out) := by
    rcases hk with rfl | rfl | rfl | rfl
    · exact run_plain 26 5 [28, 40] (tok w).ty rfl s1 (by decide +kernel) (by decide) (by decide) (by decide) (by decide)
        (by simp; omega)
    · exact run_plain 28 9 [30, 41] (tok w).ty rfl s2 (by decide +kernel) (by decide) (by decide) (by decide) (by decide)
        (by simp; omega)
    · exact run_plain 30 16 [32, 42] (tok w).ty rfl s3 (by decide +kernel) (by decide) (by decide) (by decide) (by decide)
        (by simp; omega)
    · exact run_plain 32 19 [34, 43] (tok w).ty rfl s4 (by decide +kernel) (by decide) (by decide) (by decide) (by decide)
        (by simp; omega)
  have hlen : (tailOf k ++ syms).length = syms.length + 1 := by
    rcases hk with rfl | rfl | rfl | rfl <;> simp [tailOf]
  refine key.trans ((h (tailOf k ++ syms) la rest ops casts name out (okAfter_next hla) (by omega)).trans ?_)
  exact tail_end hla (by omega)

theorem good_up_unary {cap : Nat} {ws : List Word} {e : Expr} {d : Nat} (hr : Reads .cast ws e d)
    (h : Good cap .cast ws e d) : Good cap .unary ws e d := by
  intro syms la rest ops casts name out hla room
  obtain ⟨w, ws', rfl, hw⟩ := first_tok hr
  have hn : need .unary d = 13 * d + 7 := rfl
  have hn' : need .cast d = 13 * d + 6 := rfl
  refine (run_plain 34 22 [36] (tok w).ty rfl (starts_unary _ hw) (by decide +kernel) (by decide) (by decide) (by decide)
    (by decide) (by simp; omega)).trans ?_
  exact h syms la rest ops casts name out hla (by omega)

/-- A sign or a negation before an expression. -/
theorem good_sign {cap : Nat} {ws : List Word} {e e' : Expr} {d : Nat} (w : Word) (entry sym sEntry act : Nat)
    (c : List Line)
    (t1 : entry0 34 (tok w).ty = some entry) (t2 : production? entry = some (34, [47, sym, 36, act]))
    (t3 : entry0 sym (tok w).ty = some sEntry) (t4 : production? sEntry = some (sym, [(tok w).ty]))
    (t5 : 0 < entry ∧ entry < 46 ∧ 23 ≤ sym ∧ sym < 45 ∧ 0 < sEntry ∧ sEntry < 46 ∧ 0 < (tok w).ty ∧ (tok w).ty < 23)
    (hact : ∀ (syms : List Nat) (ts : List Tok) (ops casts : List String) (name : String) (out : List Line),
      Runs cap (at_ (act :: syms) ts ((tok w).data :: ops) casts name out) (at_ syms ts ops casts name (out ++ c)))
    (he : rpn e' = rpn e ++ c) (h : Good cap .cast ws e d) : Good cap .unary (w :: ws) e' d := by
  intro syms la rest ops casts name out hla room
  have hn : need .unary d = 13 * d + 7 := rfl
  have hn' : need .cast d = 13 * d + 6 := rfl
  obtain ⟨a1, a2, a3, a4, a5, a6, a7, a8⟩ := t5
  refine (run_plain 34 entry _ (tok w).ty rfl t1 t2 (by decide) (by decide) a1 a2 (by simp; omega)).trans ?_
  refine (run_pushOp _).trans ?_
  refine (run_plain sym sEntry _ (tok w).ty rfl t3 t4 a3 a4 a5 a6 (by simp; omega)).trans ?_
  refine (run_word w _ rfl a7 a8).trans ?_
  refine (h (act :: syms) la rest _ casts name out hla (by simp only [List.length_cons]; omega)).trans ?_
  refine (hact _ _ _ _ _ _).trans ?_
  rw [he, ← List.append_assoc]
  exact .refl _ _

theorem good_cast {cap : Nat} (t : String) {ws : List Word} {e : Expr} {d : Nat} (hr : Reads .call ws e d)
    (h : Good cap .call ws e d) : Good cap .cast (.lp :: .str t :: .rp :: ws) (.cast t e) d := by
  intro syms la rest ops casts name out hla room
  obtain ⟨w, ws', rfl, hw⟩ := first_tok hr
  have hn : need .cast d = 13 * d + 6 := rfl
  have hn' : need .call d = 13 * d + 5 := rfl
  have hc : conf 49 (tok w).ty = some 27 := by
    have : ∀ t ∈ [1, 19], conf 49 t = some 27 := by decide +kernel
    exact this _ hw
  refine (run_prod (A := 36) (entry := 27) (rhs := [19, 50, 1, 20, 37, 51]) (by decide) (by decide)
    (lookup_conf3 (e := 46) (e1 := 48) (e2 := 49) (by show entry0 36 19 = _; decide +kernel) (by decide)
      (by show conf 46 1 = _; decide +kernel) (by decide) (by show conf 48 20 = _; decide +kernel) (by decide)
      (by show conf 49 (tok w).ty = _; exact hc) (by decide)) (by decide) (by decide +kernel) (by simp; omega)).trans ?_
  refine (run_word .lp 19 rfl (by decide) (by decide)).trans ?_
  refine (run_action (a := 50) (casts' := t :: casts) (ops' := ops) (name' := name) (out' := out) (by decide) rfl).trans ?_
  refine (run_word (.str t) 1 rfl (by decide) (by decide)).trans ?_
  refine (run_word .rp 20 rfl (by decide) (by decide)).trans ?_
  refine (h (51 :: syms) la rest ops (t :: casts) name out hla (by simp only [List.length_cons]; omega)).trans ?_
  have : rpn (.cast t e) = rpn e ++ [["CAST", t]] := by rw [rpn]
  rw [this, ← List.append_assoc]
  exact run_action (a := 51) (by decide) rfl

theorem good_numOf (cap : Nat) (t n : String) : Good cap .cast [.lp, .str t, .rp, .num n] (.numOf t n) 0 := by
  intro syms la rest ops casts name out hla room
  have hn : need .cast 0 = 6 := rfl
  refine (run_prod (A := 36) (entry := 28) (rhs := [19, 50, 1, 20, 52, 21]) (by decide) (by decide)
    (lookup_conf3 (e := 46) (e1 := 48) (e2 := 49) (by show entry0 36 19 = _; decide +kernel) (by decide)
      (by show conf 46 1 = _; decide +kernel) (by decide) (by show conf 48 20 = _; decide +kernel) (by decide)
      (by show conf 49 21 = _; decide +kernel) (by decide)) (by decide) (by decide +kernel) (by simp; omega)).trans ?_
  refine (run_word .lp 19 rfl (by decide) (by decide)).trans ?_
  refine (run_action (a := 50) (casts' := t :: casts) (ops' := ops) (name' := name) (out' := out) (by decide) rfl).trans ?_
  refine (run_word (.str t) 1 rfl (by decide) (by decide)).trans ?_
  refine (run_word .rp 20 rfl (by decide) (by decide)).trans ?_
  have : rpn (.numOf t n) = [["CONST", t, n]] := by rw [rpn]
  rw [this]
  refine (run_action (a := 52) (casts' := casts) (ops' := ops) (name' := name) (out' := out ++ [["CONST", t, n]])
    (by decide) rfl).trans ?_
  exact run_word (.num n) 21 rfl (by decide) (by decide)

theorem good_num (cap : Nat) (n : String) : Good cap .cast [.num n] (.num n) 0 := by
  intro syms la rest ops casts name out hla room
  have hn : need .cast 0 = 6 := rfl
  refine (run_plain 36 29 [53, 21] 21 rfl (by decide +kernel) (by decide +kernel) (by decide) (by decide) (by decide)
    (by decide) (by simp; omega)).trans ?_
  have : rpn (.num n) = [["CONST", "float64", n]] := by rw [rpn]
  rw [this]
  refine (run_action (a := 53) (casts' := casts) (ops' := ops) (name' := name) (out' := out ++ [["CONST", "float64", n]])
    (by decide) rfl).trans ?_
  exact run_word (.num n) 21 rfl (by decide) (by decide)

theorem good_var (cap : Nat) (x : String) : Good cap .primary [.str x] (.var x) 0 := by
  intro syms la rest ops casts name out hla room
  have hn : need .primary 0 = 5 := rfl
  refine (run_plain 38 33 [53, 1] 1 rfl (by decide +kernel) (by decide +kernel) (by decide) (by decide) (by decide)
    (by decide) (by simp; omega)).trans ?_
  have : rpn (.var x) = [["READ", x]] := by rw [rpn]
  rw [this]
  refine (run_action (a := 53) (casts' := casts) (ops' := ops) (name' := name) (out' := out ++ [["READ", x]])
    (by decide) rfl).trans ?_
  exact run_word (.str x) 1 rfl (by decide) (by decide)

theorem good_paren {cap : Nat} {ws : List Word} {e : Expr} {d : Nat} (h : Good cap .logic ws e d) :
    Good cap .primary (.lp :: (ws ++ [.rp])) e (d + 1) := by
  intro syms la rest ops casts name out hla room
  have hn : need .primary (d + 1) = 13 * (d + 1) + 5 := rfl
  have hn' : need .logic d = 13 * d + 15 := rfl
  refine (run_plain 38 32 [19, 26, 20] 19 rfl (by decide +kernel) (by decide +kernel) (by decide) (by decide) (by decide)
    (by decide) (by simp; omega)).trans ?_
  refine (run_word .lp 19 rfl (by decide) (by decide)).trans ?_
  have e1 : (ws ++ [Word.rp]).map tok ++ la :: rest = ws.map tok ++ tok .rp :: (la :: rest) := by simp
  show Runs cap (at_ (26 :: 20 :: syms) ((ws ++ [Word.rp]).map tok ++ la :: rest) ops casts name out) _
  rw [e1]
  refine (h (20 :: syms) (tok .rp) (la :: rest) ops casts name out (by decide) (by simp only [List.length_cons]; omega)).trans ?_
  refine (tail_logic (syms := 20 :: syms) (by decide) (by simp only [List.length_cons]; omega)).trans ?_
  exact run_word .rp 20 rfl (by decide) (by decide)

theorem good_call {cap : Nat} (f : String) (hf : f ∉ opTexts) {ws : List Word} {es : List Expr} {d : Nat}
    (h : GoodArgs cap ws es d) : Good cap .call (.str f :: .lp :: (ws ++ [.rp])) (.call f es) (d + 1) := by
  intro syms la rest ops casts name out hla room
  have hn : need .call (d + 1) = 13 * (d + 1) + 5 := rfl
  have hn' : need .logic d = 13 * d + 15 := rfl
  refine (run_prod (A := 37) (entry := 31) (rhs := [47, 1, 19, 26, 44, 20, 48]) (by decide) (by decide)
    (lookup_conf1 (e := 47) (by show entry0 37 1 = _; decide +kernel) (by decide) (by show conf 47 19 = _; decide +kernel) (by decide))
    (by decide) (by decide +kernel) (by simp; omega)).trans ?_
  refine (run_pushOp _).trans ?_
  refine (run_word (.str f) 1 rfl (by decide) (by decide)).trans ?_
  refine (run_word .lp 19 rfl (by decide) (by decide)).trans ?_
  have e1 : (ws ++ [Word.rp]).map tok ++ la :: rest = ws.map tok ++ tok .rp :: (la :: rest) := by simp
  show Runs cap (at_ (26 :: 44 :: 20 :: 48 :: syms) ((ws ++ [Word.rp]).map tok ++ la :: rest) (f :: ops) casts name out) _
  rw [e1]
  refine (h (20 :: 48 :: syms) (la :: rest) (f :: ops) casts name out (by simp only [List.length_cons]; omega)).trans ?_
  refine (run_word .rp 20 rfl (by decide) (by decide)).trans ?_
  refine (run_popOp _).trans ?_
  have : rpn (.call f es) = rpnArgs es ++ [[upperCase f]] := by rw [rpn]
  rw [this, opFormat_name hf, ← List.append_assoc]
  exact .refl _ _

theorem good_one {cap : Nat} {ws : List Word} {e : Expr} {d : Nat} (h : Good cap .logic ws e d) :
    GoodArgs cap ws [e] d := by
  intro syms rest ops casts name out room
  refine (h (44 :: syms) (tok .rp) rest ops casts name out (by decide) (by simp only [List.length_cons]; omega)).trans ?_
  refine (tail_logic (syms := 44 :: syms) (by decide) (by simp only [List.length_cons]; omega)).trans ?_
  have : rpnArgs [e] = rpn e := by simp [rpnArgs]
  rw [this]
  exact run_plain 44 45 [] 20 rfl (by decide +kernel) (by decide +kernel) (by decide) (by decide) (by decide)
    (by decide) (by simp; omega)

theorem good_more {cap : Nat} {ws vs : List Word} {e : Expr} {es : List Expr} {d d' : Nat}
    (h : Good cap .logic ws e d) (h' : GoodArgs cap vs es d') :
    GoodArgs cap (ws ++ .comma :: vs) (e :: es) (max d d') := by
  intro syms rest ops casts name out room
  have hm := need_max (k := .logic) (a := d) (b := d')
  have hn : need .logic (max d d') = 13 * (max d d') + 15 := rfl
  have e1 : (ws ++ .comma :: vs).map tok ++ tok .rp :: rest = ws.map tok ++ tok .comma :: (vs.map tok ++ tok .rp :: rest) := by
    simp
  rw [e1]
  refine (h (44 :: syms) (tok .comma) _ ops casts name out (by decide) (by simp only [List.length_cons]; omega)).trans ?_
  refine (tail_logic (syms := 44 :: syms) (by decide) (by simp only [List.length_cons]; omega)).trans ?_
  refine (run_plain 44 44 [4, 26, 44] 4 rfl (by decide +kernel) (by decide +kernel) (by decide) (by decide) (by decide)
    (by decide) (by simp; omega)).trans ?_
  refine (run_word .comma 4 rfl (by decide) (by decide)).trans ?_
  refine (h' syms rest ops casts name (out ++ rpn e) (by omega)).trans ?_
  have : rpnArgs (e :: es) = rpn e ++ rpnArgs es := by rw [rpnArgs]
  rw [this, ← List.append_assoc]
  exact .refl _ _

/-- The words of a call or of a primary. -/
inductive Simple : List Word → Prop
  | name (x : String) : Simple [.str x]
  | call (x : String) (ws : List Word) : Simple (.str x :: .lp :: ws)
  | paren (ws : List Word) (h : Shape ws) : Simple (.lp :: (ws ++ [.rp]))

theorem simple {k : Level} {ws : List Word} {e : Expr} {d : Nat} (h : Reads k ws e d) (hk : k = .call ∨ k = .primary) :
    Simple ws := by
  match h with
  | .bin o hl hr => cases o <;> simp [BinOp.level] at hk
  | .up k h' =>
    refine simple h' ?_
    rcases hk with rfl | rfl <;> exact .inr rfl
  | .neg h' => simp at hk
  | .pos h' => simp at hk
  | .not h' => simp at hk
  | .cast t h' => simp at hk
  | .numOf t n => simp at hk
  | .num n => simp at hk
  | .call f hf h' => exact .call _ _
  | .paren h' => exact .paren _ (shape h')
  | .var x => exact .name x

theorem primary_words {k : Level} {ws : List Word} {e : Expr} {d : Nat} (h : Reads k ws e d) (hk : k = .primary) :
    (∃ x, ws = [.str x]) ∨ ∃ vs, ws = .lp :: vs := by
  match h with
  | .bin o hl hr => cases o <;> simp [BinOp.level] at hk
  | .up k h' => exact primary_words h' (by rw [hk]; rfl)
  | .neg h' => simp at hk
  | .pos h' => simp at hk
  | .not h' => simp at hk
  | .cast t h' => simp at hk
  | .numOf t n => simp at hk
  | .num n => simp at hk
  | .call f hf h' => simp at hk
  | .paren h' => exact .inr ⟨_, rfl⟩
  | .var x => exact .inl ⟨x, rfl⟩

/-- A call or a primary where a cast could stand. -/
theorem good_up_cast {cap : Nat} {ws : List Word} {e : Expr} {d : Nat} (hr : Reads .call ws e d)
    (h : Good cap .call ws e d) : Good cap .cast ws e d := by
  intro syms la rest ops casts name out hla room
  have hn : need .cast d = 13 * d + 6 := rfl
  have hn' : need .call d = 13 * d + 5 := rfl
  suffices key : ∀ fuel, 4 ≤ fuel → lookup fuel 36 ((ws.map tok ++ la :: rest).headD eof).ty (ws.map tok ++ la :: rest).tail =
      .ok 26 by
    refine (run_prod (A := 36) (entry := 26) (rhs := [37]) (by decide) (by decide) key (by decide) (by decide +kernel)
      (by simp; omega)).trans ?_
    exact h syms la rest ops casts name out hla (by omega)
  cases simple hr (.inl rfl) with
  | name x => exact lookup_plain (by show entry0 36 1 = _; decide +kernel) (by decide)
  | call x vs => exact lookup_plain (by show entry0 36 1 = _; decide +kernel) (by decide)
  | paren us hs =>
    cases hs with
    | name x =>
      exact lookup_conf3 (e := 46) (e1 := 48) (e2 := 49) (by show entry0 36 19 = _; decide +kernel) (by decide)
        (by show conf 46 1 = _; decide +kernel) (by decide) (by show conf 48 20 = _; decide +kernel) (by decide)
        (by show conf 49 la.ty = _; exact paren_end _ (okAfter_lt hla) hla) (by decide)
    | more x w vs hw =>
      exact lookup_conf2 (e := 46) (e1 := 48) (by show entry0 36 19 = _; decide +kernel) (by decide)
        (by show conf 46 1 = _; decide +kernel) (by decide)
        (by show conf 48 (tok w).ty = _; exact paren_second _ (by omega) hw) (by decide)
    | other w vs hw =>
      exact lookup_conf1 (e := 46) (by show entry0 36 19 = _; decide +kernel) (by decide)
        (by show conf 46 (tok w).ty = _; exact paren_first _ hw) (by decide)

theorem good_up_call {cap : Nat} {ws : List Word} {e : Expr} {d : Nat} (hr : Reads .primary ws e d)
    (h : Good cap .primary ws e d) : Good cap .call ws e d := by
  intro syms la rest ops casts name out hla room
  have hn : need .call d = 13 * d + 5 := rfl
  have hn' : need .primary d = 13 * d + 5 := rfl
  suffices key : ∀ fuel, 4 ≤ fuel → lookup fuel 37 ((ws.map tok ++ la :: rest).headD eof).ty (ws.map tok ++ la :: rest).tail =
      .ok 30 by
    refine (run_prod (A := 37) (entry := 30) (rhs := [38]) (by decide) (by decide) key (by decide) (by decide +kernel)
      (by simp; omega)).trans ?_
    exact h syms la rest ops casts name out hla (by omega)
  rcases primary_words hr rfl with ⟨x, rfl⟩ | ⟨vs, rfl⟩
  · exact lookup_conf1 (e := 47) (by show entry0 37 1 = _; decide +kernel) (by decide)
      (by show conf 47 la.ty = _; exact var_end _ (okAfter_lt hla) hla) (by decide)
  · exact lookup_plain (by show entry0 37 19 = _; decide +kernel) (by decide)

mutual
theorem good (cap : Nat) {k : Level} {ws : List Word} {e : Expr} {d : Nat} (h : Reads k ws e d) : Good cap k ws e d := by
  match h with
  | .bin o hl hr => exact good_bin o (good cap hl) (good cap hr)
  | .up k h' =>
    have ih := good cap h'
    cases k with
    | logic => exact good_up_op (.inl rfl) h' ih
    | comparison => exact good_up_op (.inr (.inl rfl)) h' ih
    | sum => exact good_up_op (.inr (.inr (.inl rfl))) h' ih
    | product => exact good_up_op (.inr (.inr (.inr rfl))) h' ih
    | unary => exact good_up_unary h' ih
    | cast => exact good_up_cast h' ih
    | call => exact good_up_call h' ih
    | primary => exact ih
  | .neg h' =>
    exact good_sign (.op .sub) 23 31 18 49 [["NEG"]] (by decide +kernel) (by decide +kernel) (by decide +kernel)
      (by decide +kernel) (by decide) (fun _ _ _ _ _ _ => run_action (by decide) rfl) (by rw [rpn]) (good cap h')
  | .pos h' =>
    exact good_sign (.op .add) 23 31 17 49 [] (by decide +kernel) (by decide +kernel) (by decide +kernel)
      (by decide +kernel) (by decide) (fun _ _ _ _ _ out => run_action (by decide) (by rw [List.append_nil]; rfl))
      (by rw [rpn, List.append_nil]) (good cap h')
  | .not h' =>
    exact good_sign .bang 24 35 25 48 [["NOT"]] (by decide +kernel) (by decide +kernel) (by decide +kernel)
      (by decide +kernel) (by decide) (fun _ _ _ _ _ _ => run_action (by decide) rfl) (by rw [rpn]) (good cap h')
  | .cast t h' => exact good_cast t h' (good cap h')
  | .numOf t n => exact good_numOf cap t n
  | .num n => exact good_num cap n
  | .call f hf h' => exact good_call f hf (goodArgs cap h')
  | .paren h' => exact good_paren (good cap h')
  | .var x => exact good_var cap x
theorem goodArgs (cap : Nat) {ws : List Word} {es : List Expr} {d : Nat} (h : ReadsArgs ws es d) :
    GoodArgs cap ws es d := by
  match h with
  | .one h' => exact good_one (good cap h')
  | .more h' h'' => exact good_more (good cap h') (goodArgs cap h'')
end

/-! ## Programs -/

theorem stmt_runs {cap : Nat} (x : String) (stop : Word) (hs : stop = .semi ∨ stop = .comma) {ws : List Word} {e : Expr}
    {d : Nat} (h : Reads .logic ws e d) (vs : List Word) (name : String) (out : List Line) (room : 18 + 13 * d ≤ cap) :
    Runs cap (at_ [24, 39] ((Word.str x :: .assign :: (ws ++ stop :: vs)).map tok) [] [] name out)
      (at_ [39] (vs.map tok) [] [] x (out ++ (rpn e ++ [["WRITE", x]]))) := by
  have hn : need .logic d = 13 * d + 15 := rfl
  have e1 : (Word.str x :: .assign :: (ws ++ stop :: vs)).map tok =
      tok (.str x) :: tok .assign :: (ws.map tok ++ tok stop :: vs.map tok) := by simp
  rw [e1]
  refine (run_plain 24 2 [45, 1, 2, 26, 25, 46] 1 rfl (by decide +kernel) (by decide +kernel) (by decide) (by decide)
    (by decide) (by decide) (by simp; omega)).trans ?_
  refine (run_action (a := 45) (casts' := []) (ops' := []) (name' := x) (out' := out) (by decide) rfl).trans ?_
  refine (run_word (.str x) 1 rfl (by decide) (by decide)).trans ?_
  refine (run_word .assign 2 rfl (by decide) (by decide)).trans ?_
  refine (good cap h [25, 46, 39] (tok stop) _ [] [] x out (by rcases hs with rfl | rfl <;> decide)
    (by simp only [List.length_cons, List.length_nil]; omega)).trans ?_
  refine (tail_logic (syms := [25, 46, 39]) (by rcases hs with rfl | rfl <;> decide) (by simp; omega)).trans ?_
  have key : Runs cap (at_ [25, 46, 39] (tok stop :: vs.map tok) [] [] x (out ++ rpn e))
      (at_ [46, 39] (vs.map tok) [] [] x (out ++ rpn e)) := by
    rcases hs with rfl | rfl
    · refine (run_plain 25 3 [3] 3 rfl (by decide +kernel) (by decide +kernel) (by decide) (by decide) (by decide)
        (by decide) (by simp; omega)).trans ?_
      exact run_word .semi 3 rfl (by decide) (by decide)
    · refine (run_plain 25 4 [4] 4 rfl (by decide +kernel) (by decide +kernel) (by decide) (by decide) (by decide)
        (by decide) (by simp; omega)).trans ?_
      exact run_word .comma 4 rfl (by decide) (by decide)
  refine key.trans ?_
  rw [← List.append_assoc out]
  exact run_action (a := 46) (casts' := []) (ops' := []) (name' := x) (out' := out ++ rpn e ++ [["WRITE", x]])
    (by decide) rfl

theorem prog_runs (cap : Nat) {ws : List Word} {prog : List (String × Expr)} {d : Nat} (h : ReadsProg ws prog d) :
    ∀ (name : String) (out : List Line), 18 + 13 * d ≤ cap →
      ∃ name', Runs cap (at_ [39] (ws.map tok) [] [] name out) (at_ [39] [] [] [] name' (out ++ rpnProg prog)) := by
  induction h with
  | nil =>
    intro name out _
    exact ⟨name, by rw [rpnProg]; simp; exact .refl _ _⟩
  | @cons x stop hs ws e d vs prog d' h h' ih =>
    intro name out room
    obtain ⟨n', ih⟩ := ih x (out ++ (rpn e ++ [["WRITE", x]])) (by omega)
    refine ⟨n', ?_⟩
    have e2 : rpnProg ((x, e) :: prog) = (rpn e ++ [["WRITE", x]]) ++ rpnProg prog := by simp [rpnProg]
    rw [e2, ← List.append_assoc]
    refine (run_plain 39 34 [24, 39] 1 rfl (by decide +kernel) (by decide +kernel) (by decide) (by decide) (by decide)
      (by decide) (by simp; omega)).trans ?_
    exact (stmt_runs x stop hs h vs name out (by omega)).trans ih

theorem outer_end (cap m : Nat) (name : String) (out : List Line) :
    outer cap (m + 1) (finish { at_ [] [] [] [] name out with token := 22, newToken := 22, isEOF := true }) =
      .ok { at_ [] [] [] [] name out with token := 22, newToken := 22, isEOF := true } := by rfl

theorem begin_new (cap : Nat) (h : 1 ≤ cap) (input : List Tok) :
    begin cap (PS.new input) = at_ [23] input [] [] "" [] := by
  unfold begin push
  rw [if_pos (show ([] : List Nat).length < cap from h)]
  rfl

theorem outer_new (cap m : Nat) (h : 1 ≤ cap) (input : List Tok) : outer cap (m + 1) (PS.new input) =
    match inner cap m (at_ [23] input [] [] "" []) with
    | .ok s' => outer cap m (finish s')
    | .oob => .oob
    | .more => .more := by
  rw [← begin_new cap h]
  rfl

theorem parse_good {cap : Nat} {ws : List Word} {prog : List (String × Expr)} {d : Nat} (h : ReadsProg ws prog d)
    (room : 18 + 13 * d ≤ cap) : ∃ n, ∀ fuel, n ≤ fuel → parse cap fuel (ws.map tok) = .ok (true, rpnProg prog) := by
  cases h with
  | nil =>
    refine ⟨4, fun fuel hf => ?_⟩
    obtain ⟨m, rfl⟩ : ∃ m, fuel = m + 3 + 1 := ⟨fuel - 4, by omega⟩
    unfold parse
    rw [outer_new cap _ (by omega), List.map_nil, end_empty]
    simp only
    rw [outer_end]
    rfl
  | @cons x stop hs ws e d vs prog d' h h' =>
    obtain ⟨n', hr⟩ := prog_runs cap h' x ([] ++ (rpn e ++ [["WRITE", x]])) (by omega)
    have h1 : Runs cap (at_ [23] ((Word.str x :: .assign :: (ws ++ stop :: vs)).map tok) [] [] "" [])
        (at_ [24, 39] ((Word.str x :: .assign :: (ws ++ stop :: vs)).map tok) [] [] "" []) :=
      run_plain 23 1 [24, 39] 1 rfl (by decide +kernel) (by decide +kernel) (by decide) (by decide) (by decide)
        (by decide) (by simp; omega)
    obtain ⟨n, hn⟩ := h1.trans ((stmt_runs x stop hs h vs "" [] (by omega)).trans hr)
    have e2 : rpnProg ((x, e) :: prog) = (rpn e ++ [["WRITE", x]]) ++ rpnProg prog := by simp [rpnProg]
    refine ⟨n + 6, fun fuel hf => ?_⟩
    obtain ⟨m, rfl⟩ : ∃ m, fuel = (m + 1 + 3 + n) + 1 + 1 := ⟨fuel - n - 6, by omega⟩
    unfold parse
    rw [outer_new cap _ (by omega)]
    have := hn (m + 1 + 3 + 1) (by omega)
    have e3 : m + 1 + 3 + n + 1 = m + 1 + 3 + 1 + n := by omega
    rw [e3, this]
    rw [show m + 1 + 3 + 1 = (m + 2) + 3 from rfl, end_inner]
    simp only
    rw [show m + 2 + 3 + n = (m + 4 + n) + 1 by omega, outer_end]
    rw [e2]
    rfl

end Verif.Math
