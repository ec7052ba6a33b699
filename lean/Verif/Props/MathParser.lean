import Verif.Proof.MathParser2
import Verif.Props.RuntimeEvaluator
/-!
# C38: from the text of an expression to the program that computes it

`Verif.MathExpr` (the words, the grammar `Reads`, the value of a tree) is independent of the parser.
-/
namespace Verif.Math
open Verif.MathExpr
open Verif.Rpn hiding Word

/-- Every text that the grammar reads as the assignments `prog`, with parentheses nested up to 37 deep, is accepted
and translated to the reverse Polish form of `prog`: for all lengths, names and numbers.  The full property asks for
every depth (see `c38_depth_refuted`) and for the usual precedence of `&&` over `||` (see `c38_precedence_refuted`). -/
theorem c38_parse_partial {ws : List Word} {prog : List (String × Expr)} {d : Nat} (h : ReadsProg ws prog d) (hd : d ≤ 37) :
    ∃ n, ∀ fuel, n ≤ fuel → parse stackCap fuel (ws.map tok) = .ok (true, rpnProg prog) :=
  parse_good h (by unfold stackCap; omega)

/-- The same for a parse stack of any size: 13 more places for each level of parentheses are enough. -/
theorem c38_parse_any {cap : Nat} {ws : List Word} {prog : List (String × Expr)} {d : Nat} (h : ReadsProg ws prog d)
    (hc : 18 + 13 * d ≤ cap) : ∃ n, ∀ fuel, n ≤ fuel → parse cap fuel (ws.map tok) = .ok (true, rpnProg prog) :=
  parse_good h hc

/-- An answer does not depend on the number of steps allowed: what `c38_parse_partial` finds is the only answer. -/
theorem c38_unique {cap f g : Nat} {input : List Tok} {r r' : Bool × List Line} (h : parse cap f input = .ok r)
    (h' : parse cap g input = .ok r') : r = r' := by
  have h1 := parse_mono h (g := f + g) (by omega)
  have h2 := parse_mono h' (g := f + g) (by omega)
  rw [h1] at h2
  injection h2

/-- The reverse Polish form of assignments computes their values. -/
theorem c38_value {safe : Bool} {lib : List Fn} (hlib : ∀ r ∈ lib, r.Ok) (hu : Uniform lib) {N : Names}
    {inD outD : String → Option Decl} {prog : List (String × Expr)} {s s' : St} (he : s.err = false)
    (h : exec lib N inD outD s prog = some s') : run safe lib N inD outD s (rpnProg prog) = some s' :=
  (exec_run hlib hu prog he h).1

private def arity (n : String) : Nat :=
  if n ∈ ["READ", "RREAD"] then 0
  else if n ∈ ["POW", "GT", "LT", "GTE", "LTE", "EQ", "NEQ", "AND", "OR", "XOR", "ADD", "SUB", "MUL", "DIV"] then 2 else 1

private theorem uniform_of (A : Rt.Arith) (T : List Rt.Entry) (hall : (T.all fun e => e.nIn == arity e.name) = true) :
    Uniform (T.map (Rt.Entry.fn A)) := by
  intro r hr r' hr' hn
  obtain ⟨e, he, rfl⟩ := List.mem_map.1 hr
  obtain ⟨e', he', rfl⟩ := List.mem_map.1 hr'
  have h1 := List.all_eq_true.1 hall e he
  have h2 := List.all_eq_true.1 hall e' he'
  have hn' : e.name = e'.name := hn
  show e.nIn = e'.nIn
  rw [beq_iff_eq] at h1 h2
  rw [h1, h2, hn']

/-- In the registered library, functions of the same name have the same number of arguments. -/
theorem c38_uniform (A : Rt.Arith) : Uniform (Rt.builtin A) :=
  uniform_of A Rt.table (by decide +kernel)

/-- From the text to the results: a text read as `prog` is parsed; when its translation compiles, running it succeeds
in both modes, leaves the stack empty, and delivers in each output what the assignments give it. -/
theorem c38_text {ws : List Word} {prog : List (String × Expr)} {d : Nat} (hr : ReadsProg ws prog d) (hd : d ≤ 37)
    {A : Rt.Arith} {N : Names} {e ev : Rt.Ev} (hc : Rt.Compiled (Rt.builtin A) N (rpnProg prog) e ev)
    {data stack0 : List Rpn.Word} (hu : Rt.UserData ev data) (hs : stack0.length = ev.stackSize) (mem : Nat → Rpn.Word) (safe : Bool)
    {s' : St} (hx : exec (Rt.builtin A) N (Rt.inDecl e) (Rt.outDecl e) (Rt.start ev data mem) prog = some s') :
    (∃ n, ∀ fuel, n ≤ fuel → parse stackCap fuel (ws.map tok) = .ok (true, rpnProg prog)) ∧
    ∃ m, Rt.execute safe (Rt.builtin A) ev stack0 data mem = some (true, m) ∧ m.mem = s'.mem ∧ m.sp = 0 ∧
      ∀ v ∈ ev.outs, ∀ t, s'.written v.name = some t →
        v.type = t ∧ (v.ext = none → Rt.readW m.data v.loc t.words = some (s'.out v.name)) := by
  refine ⟨c38_parse_partial hr hd, ?_⟩
  obtain ⟨h1, h2⟩ := exec_run (safe := safe) hc.libOk (c38_uniform A) prog rfl hx
  obtain ⟨m, a, b, c, f⟩ := Rt.c39_run hc hu hs mem safe h1
  rw [h2] at a
  exact ⟨m, a, b, c h2, f (by rw [h2]; simp)⟩

/-- For every sequence of tokens the lexical analyser can deliver, however wrong, the parser reads only inside its
tables. -/
theorem c38_safe (cap fuel : Nat) (input : List Tok) (h : ∀ t ∈ input, t.ty < 22) : parse cap fuel input ≠ .oob := by
  unfold parse
  have := outer_safe (cap := cap) fuel (PS.new input) ⟨by show 0 < 54; decide, (by intro x hx; cases hx), by show 0 < 23; decide, by show 0 < 23; decide, by show 0 < 22; decide, h⟩
  cases ho : outer cap fuel (PS.new input) with
  | oob => exact absurd ho this
  | more => intro h; cases h
  | ok s => intro h; cases h

/-! ## Disagreements -/

/-- A text that ends right after `( name )` never gets an answer: the parser looks further and further ahead. -/
theorem c38_end_refuted (y x : String) (fuel : Nat) (r : Bool × List Line) :
    parse stackCap fuel ([Word.str y, .assign, .lp, .str x, .rp].map tok) ≠ .ok r :=
  hang stackCap (by decide) y x fuel r

/-- `y = a || b && c` is read as `(a || b) && c`: the logical operators have one precedence. -/
theorem c38_precedence_refuted :
    parse stackCap 100 ([Word.str "y", .assign, .str "a", .op .or, .str "b", .op .and, .str "c", .semi].map tok) =
      .ok (true, rpnProg [("y", .bin .and (.bin .or (.var "a") (.var "b")) (.var "c"))]) := by decide +kernel

/-- `y = a == b > c` is read as `(a == b) > c`: so do the comparisons. -/
theorem c38_comparison_refuted :
    parse stackCap 100 ([Word.str "y", .assign, .str "a", .op .eq, .str "b", .op .gt, .str "c", .semi].map tok) =
      .ok (true, rpnProg [("y", .bin .gt (.bin .eq (.var "a") (.var "b")) (.var "c"))]) := by decide +kernel

/-- `a = x + ((( … f(b) … )))` with `n` pairs of parentheses. -/
def deep (n : Nat) : List Word :=
  [.str "a", .assign, .str "x", .op .add] ++ (List.replicate n .lp ++ [.str "f", .lp, .str "b", .rp] ++
    List.replicate n .rp) ++ [.semi]

private theorem reads_f : Reads .call [.str "f", .lp, .str "b", .rp] (.call "f" [.var "b"]) 1 :=
  .call "f" (by decide) (.one (.up .logic (.up .comparison (.up .sum (.up .product (.up .unary (.up .cast (.up .call (.var "b")))))))))

private theorem reads_deep : ∀ n, Reads .cast (List.replicate n .lp ++ [.str "f", .lp, .str "b", .rp] ++ List.replicate n .rp)
    (.call "f" [.var "b"]) (n + 1)
  | 0 => .up .cast reads_f
  | n + 1 => by
    have h := Reads.up .cast (.up .call (.paren (.up .logic (.up .comparison (.up .sum (.up .product (.up .unary (reads_deep n))))))))
    have e : Word.lp :: ((List.replicate n .lp ++ [.str "f", .lp, .str "b", .rp] ++ List.replicate n .rp) ++ [.rp]) =
        List.replicate (n + 1) .lp ++ [.str "f", .lp, .str "b", .rp] ++ List.replicate (n + 1) Word.rp := by
      rw [List.replicate_succ, List.replicate_succ' (n := n) (a := Word.rp)]
      simp
    rw [e] at h
    exact h

/-- The text means `a = x + f(b)`, however many pairs of parentheses. -/
theorem reads_deepProg (n : Nat) : ReadsProg (deep n) [("a", .bin .add (.var "x") (.call "f" [.var "b"]))] (n + 1) := by
  have h2 : Reads .sum (.str "x" :: .op .add :: (List.replicate n .lp ++ [.str "f", .lp, .str "b", .rp] ++ List.replicate n .rp))
      (.bin .add (.var "x") (.call "f" [.var "b"])) (max 0 (n + 1)) :=
    Reads.bin .add (ls := [.str "x"]) (.up .sum (.up .product (.up .unary (.up .cast (.up .call (.var "x"))))))
      (.up .product (.up .unary (reads_deep n)))
  have h3 := ReadsProg.cons "a" .semi (.inl rfl) (.up .logic (.up .comparison h2)) .nil
  have e : max (max 0 (n + 1)) 0 = n + 1 := by omega
  rw [e] at h3
  have e2 : Word.str "a" :: .assign :: ((.str "x" :: .op .add :: (List.replicate n .lp ++ [.str "f", .lp, .str "b", .rp] ++
      List.replicate n .rp)) ++ .semi :: []) = deep n := by simp [deep]
  rw [e2] at h3
  exact h3

set_option maxRecDepth 100000 in
/-- With 99 pairs of parentheses the parse stack overflows silently: the text is accepted, and the argument of the
function is lost. -/
theorem c38_depth_refuted :
    ReadsProg (deep 99) [("a", .bin .add (.var "x") (.call "f" [.var "b"]))] 100 ∧
    parse stackCap 2000 ((deep 99).map tok) = .ok (true, [["READ", "x"], ["F"], ["ADD"], ["WRITE", "a"]]) :=
  ⟨reads_deepProg 99, by decide +kernel⟩

/-- What follows a token of no known kind (`|` alone) is ignored, and success is reported: of `a = b; | c = d;` only
the first assignment is translated. -/
theorem c38_rest_refuted : parse stackCap 100 ([Word.str "a", .assign, .str "b", .semi].map tok ++ ⟨0, "|"⟩ ::
    [Word.str "c", .assign, .str "d", .semi].map tok) = .ok (true, rpnProg [("a", .var "b")]) := by decide +kernel

/-! ## Instances -/

/-- `y = a - b * (c + 2) - f(d, -e);` -/
def sample : List Word :=
  [.str "y", .assign, .str "a", .op .sub, .str "b", .op .mul, .lp, .str "c", .op .add, .num "2", .rp, .op .sub, .str "f", .lp,
   .str "d", .comma, .op .sub, .str "e", .rp, .semi]

def sampleProg : List (String × Expr) :=
  [("y", .bin .sub (.bin .sub (.var "a") (.bin .mul (.var "b") (.bin .add (.var "c") (.num "2"))))
    (.call "f" [.var "d", .neg (.var "e")]))]

/-- The hypotheses of the theorems are met. -/
example : ReadsProg sample sampleProg 1 := by
  have v : ∀ x k, Reads k [.str x] (.var x) 0 := by
    intro x k
    have p := Reads.var x
    have c := Reads.up .call p
    have t := Reads.up .cast c
    have u := Reads.up .unary t
    have m := Reads.up .product u
    have s := Reads.up .sum m
    have r := Reads.up .comparison s
    have l := Reads.up .logic r
    match k with
    | .primary => exact p
    | .call => exact c
    | .cast => exact t
    | .unary => exact u
    | .product => exact m
    | .sum => exact s
    | .comparison => exact r
    | .logic => exact l
  have n2 : Reads .product [.num "2"] (.num "2") 0 := .up .product (.up .unary (.num "2"))
  have s1 : Reads .sum [.str "c", .op .add, .num "2"] (.bin .add (.var "c") (.num "2")) 0 :=
    Reads.bin .add (ls := [.str "c"]) (v "c" .sum) n2
  have p1 : Reads .unary [.lp, .str "c", .op .add, .num "2", .rp] (.bin .add (.var "c") (.num "2")) 1 :=
    .up .unary (.up .cast (.up .call (.paren (ws := [.str "c", .op .add, .num "2"]) (.up .logic (.up .comparison s1)))))
  have m1 : Reads .product [.str "b", .op .mul, .lp, .str "c", .op .add, .num "2", .rp]
      (.bin .mul (.var "b") (.bin .add (.var "c") (.num "2"))) 1 := Reads.bin .mul (ls := [.str "b"]) (v "b" .product) p1
  have a1 : Reads .sum [.str "a", .op .sub, .str "b", .op .mul, .lp, .str "c", .op .add, .num "2", .rp]
      (.bin .sub (.var "a") (.bin .mul (.var "b") (.bin .add (.var "c") (.num "2")))) 1 :=
    Reads.bin .sub (ls := [.str "a"]) (v "a" .sum) m1
  have f1 : Reads .call [.str "f", .lp, .str "d", .comma, .op .sub, .str "e", .rp] (.call "f" [.var "d", .neg (.var "e")]) 1 :=
    .call "f" (by decide) (ws := [.str "d", .comma, .op .sub, .str "e"])
      (.more (ws := [.str "d"]) (v "d" .logic) (.one (ws := [.op .sub, .str "e"])
        (.up .logic (.up .comparison (.up .sum (.up .product (.neg (v "e" .cast))))))))
  have a2 : Reads .sum [.str "a", .op .sub, .str "b", .op .mul, .lp, .str "c", .op .add, .num "2", .rp, .op .sub, .str "f", .lp,
      .str "d", .comma, .op .sub, .str "e", .rp] (.bin .sub (.bin .sub (.var "a") (.bin .mul (.var "b") (.bin .add (.var "c") (.num "2"))))
      (.call "f" [.var "d", .neg (.var "e")])) 1 :=
    Reads.bin .sub (ls := [.str "a", .op .sub, .str "b", .op .mul, .lp, .str "c", .op .add, .num "2", .rp]) a1
      (.up .product (.up .unary (.up .cast f1)))
  exact ReadsProg.cons (vs := []) "y" .semi (.inl rfl) (.up .logic (.up .comparison a2)) .nil

example : rpnProg sampleProg = [["READ", "a"], ["READ", "b"], ["READ", "c"], ["CONST", "float64", "2"], ["ADD"], ["MUL"],
    ["SUB"], ["READ", "d"], ["READ", "e"], ["NEG"], ["F"], ["SUB"], ["WRITE", "y"]] := by decide +kernel

example : parse stackCap 300 (sample.map tok) = .ok (true, [["READ", "a"], ["READ", "b"], ["READ", "c"],
    ["CONST", "float64", "2"], ["ADD"], ["MUL"], ["SUB"], ["READ", "d"], ["READ", "e"], ["NEG"], ["F"], ["SUB"],
    ["WRITE", "y"]]) := by decide +kernel

/-- `y = a + b + (int32) 1;` -/
def sumText : List (String × Expr) := [("y", .bin .add (.bin .add (.var "a") (.var "b")) (.numOf "int32" "1"))]

example : rpnProg sumText = Rt.sumProgram := by decide +kernel

/-- And its value: with `a = 5` and `b = 7` (inputs of type `int32`), 13. -/
example : (exec (Rt.builtin Rt.demoArith) Rt.demoNames (fun n => if n = "a" ∨ n = "b" then some ⟨.i32, none⟩ else none)
    (fun n => if n = "y" then some ⟨.void, none⟩ else none)
    { stack := [], inp := fun n => if n = "a" then [5] else [7], out := fun _ => [], written := fun _ => none
      mem := fun _ => 0, err := false } sumText).map (fun s => (s.out "y", s.written "y")) = some ([13], some .i32) := by
  decide +kernel

/-- A missing semicolon and a missing parenthesis are refused. -/
example : parse stackCap 300 ([Word.str "a", .assign, .str "b"].map tok) = .ok (false, []) ∧
    parse stackCap 300 ([Word.str "a", .assign, .lp, .str "b", .semi].map tok) = .ok (false, []) := by decide +kernel

end Verif.Math
