import Verif.Proof.RuntimeEvaluator9
/-!
# C39: a compiled RPN program never corrupts its stack

`compile` and `execute` model `RuntimeEvaluator::Compile` and `Execute`; an access outside a memory block is
`crash`/`none`.  What the program is supposed to compute is `Rpn.run` (`Spec/Rpn.lean`), which knows nothing of
addresses, code words or stack sizes.
-/
namespace Verif.Rt
open Verif.Rpn

/-- `e` is an evaluator as a user gets it: new, `ExtractVariables` on the program, then any sequence of settings of
types (of at most 64 bits) and of memory for the variables. -/
def Prepared (N : Names) (lines : List (List String)) (e : Ev) : Prop :=
  ∃ (e0 : Ev) (ops : List SetOp), extract N Ev.new lines = some e0 ∧ (∀ op ∈ ops, SetOp.Ok op) ∧ e = ops.foldl setOp e0

/-- `ev` is the result of a successful `Compile`. -/
structure Compiled (lib : List Fn) (N : Names) (lines : List (List String)) (e ev : Ev) : Prop where
  libOk : ∀ r ∈ lib, r.Ok
  names : N.Ok
  short : lines.length ≤ 32767
  plain : ∀ l ∈ lines, l.head? ≠ some "RREAD" ∧ l.head? ≠ some "RWRITE"
  prepared : Prepared N lines e
  compiled : ∃ junk, compile lib N junk e lines = .ok (true, ev)

/-- The user changes the data memory only where variables of the program are. -/
def UserData (ev : Ev) (data : List Word) : Prop :=
  data.length = ev.data.length ∧
  ∀ a, (∀ v ∈ ev.ins ++ ev.outs, v.ext = none → ¬ (v.loc ≤ a ∧ a < v.loc + v.type.words)) → data[a]? = ev.data[a]?

/-- The variables as the user declared them. -/
def inDecl (e : Ev) (n : String) : Option Decl := (find e.ins n).map decl
def outDecl (e : Ev) (n : String) : Option Decl := (find e.outs n).map decl

/-- The calculation at the start: the inputs are what the user has put in the data memory. -/
def start (ev : Ev) (data : List Word) (mem : Nat → Word) : St :=
  { stack := []
    inp := fun n => match find ev.ins n with
      | some v => (data.drop v.loc).take v.type.words
      | none => []
    out := fun _ => [], written := fun _ => none, mem := mem, err := false }

private theorem prepared_fresh {N : Names} (hN : N.Ok) {lines : List (List String)} (hlen : lines.length ≤ 32767) {e : Ev}
    (h : Prepared N lines e) : FreshEv N e lines := by
  obtain ⟨e0, ops, h1, h2, rfl⟩ := h
  exact setOps_fresh ops (extract_fresh hN hlen h1) h2

/-- `Compile` never leaves its memories: every program of up to 32767 lines, every choice of types and memory. -/
theorem c39_compile_safe {lib : List Fn} (hlib : ∀ r ∈ lib, r.Ok) {N : Names} (hN : N.Ok)
    {lines : List (List String)} (hlen : lines.length ≤ 32767) {e : Ev} (he : Prepared N lines e)
    (junk : Nat → Word) : compile lib N junk e lines ≠ .crash :=
  compile_nocrash hlib hN hlen (prepared_fresh hN hlen he) junk

private theorem find_of_mem {vs : List Var} (h : (vs.map (·.name)).Nodup) {v : Var} (hv : v ∈ vs) :
    find vs v.name = some v := by
  cases hf : find vs v.name with
  | none => exact absurd (List.mem_map.2 ⟨v, hv, rfl⟩) (find_none hf)
  | some w =>
    obtain ⟨h1, h2⟩ := find_mem hf
    rw [nodup_name h h1 hv h2]

/-- The situation at the start of `Execute`. -/
private theorem start_rel {lib N lines e ev} (h : Compiled lib N lines e ev) {data stack0 : List Word}
    (hd : UserData ev data) (mem : Nat → Word) :
    ∃ ins outs0 B L c0 cE, Ctx lib N ins outs0 e.startVar B L ∧ CI N outs0 e.startVar L (fun _ => none) c0 lines ∧
      compLines lib N ins c0 lines = .ok cE ∧ cE.ts = [] ∧ ev.outs = cE.outs ∧ ev.data = cE.data ∧
      ev.code = cE.code ∧ ev.stackSize = cE.maxDss ∧ c0.code = [] ∧
      (∀ n, inDecl e n = (find ins n).map decl) ∧ (∀ n, outDecl e n = (find outs0 n).map decl) ∧
      Rel ins outs0 cE.data c0 (start ev data mem)
        { pc := 0, sp := 0, stack := stack0, data := data, mem := mem, err := false } := by
  have hf := prepared_fresh h.names h.short h.prepared
  obtain ⟨junk, hc⟩ := h.compiled
  obtain ⟨ins, outs0, B, L, cE, h1, h2, h3, h4, h5, h6, h7, h8, h9⟩ := compile_inv hc
  obtain ⟨ctx, s1, s2⟩ := compile_ctx h.libOk h.names h.short hf h1 h2
  have ci := ci0 h.short hf junk outs0 L
  refine ⟨ins, outs0, B, L, c0 junk outs0 L, cE, ctx, ci, h3, h4, h6, h7, h8, h9, rfl, fun n => (s1.find n).symm,
    fun n => (s2.find n).symm, ?_⟩
  obtain ⟨w, ciE, _, _, _, _⟩ := (lines_ci ctx lines ci).2 cE h3
  obtain ⟨d1, d2⟩ := hd
  have hslotI : ∀ v ∈ ins, v.ext = none → slotW v = v.type.words := by
    intro v hv hx
    have hnv : v.type ≠ .void := by intro hh; have := ctx.numI v hv; rw [hh] at this; cases this
    simp [slotW, hx, hnv]
  exact {
    pc := rfl
    types := rfl
    sized := by intro x hx; cases hx
    holds := ⟨rfl, by simp [start, flat]⟩
    err := rfl
    mem := rfl
    outs := ci.outs
    data := {
      len := by rw [← h7]; exact d1
      inp := by
        intro v hv hx
        have hr := (place_range ctx (List.mem_append.2 (.inl hv))).2
        rw [hslotI v hv hx] at hr
        have hfind : find ev.ins v.name = some v := by rw [h5]; exact find_of_mem ctx.nodI hv
        have hlen : v.loc + v.type.words ≤ data.length := by rw [d1, h7, ciE.len]; exact hr
        simp only [start, hfind, readW, if_pos hlen]
      out := by intro v hv hx t ht; cases ht
      rest := by
        intro a ha
        rw [← h7]
        refine d2 a ?_
        intro v hv hx hcon
        rcases List.mem_append.1 hv with hv | hv
        · rw [h5] at hv
          have := ha v (List.mem_append.2 (.inl hv)) hx
          rw [hslotI v hv hx] at this
          omega
        · rw [h6, ciE.outs] at hv
          obtain ⟨u, hu, rfl⟩ := List.mem_map.1 hv
          rw [upd_ext] at hx
          rw [upd_loc] at hcon
          have := ha u (List.mem_append.2 (.inr hu)) hx
          have hle : (upd w u).type.words ≤ slotW u := by
            unfold upd
            cases hw : w u.name with
            | some t => exact typeFits ctx ciE.types hu hx hw
            | none =>
              simp only [slotW, hx]
              split
              · rename_i hv; rw [hv]; decide
              · exact Nat.le_refl _
          omega } }

/-- The compiled program does what the text says, never leaving its stack, data or code memory: whenever the
calculation is defined (`run`), the machine terminates inside its memories, reports success exactly when no error
occurred, has the same effect on the user's memory and leaves the same values, of the same types, in the outputs;
without error its stack is empty at the end. -/
theorem c39_run {lib N lines e ev} (h : Compiled lib N lines e ev) {data stack0 : List Word} (hd : UserData ev data)
    (hs : stack0.length = ev.stackSize) (mem : Nat → Word) (safe : Bool) {s' : St}
    (hrun : run safe lib N (inDecl e) (outDecl e) (start ev data mem) lines = some s') :
    ∃ m, execute safe lib ev stack0 data mem = some (!s'.err, m) ∧ m.mem = s'.mem ∧
      (s'.err = false → m.sp = 0) ∧
      ((safe && s'.err) = false → ∀ v ∈ ev.outs, ∀ t, s'.written v.name = some t →
        v.type = t ∧ (v.ext = none → readW m.data v.loc t.words = some (s'.out v.name))) := by
  obtain ⟨ins, outs0, B, L, c0, cE, ctx, ci, h3, h4, h6, h7, h8, h9, hcode0, hiD, hoD, hR⟩ := start_rel (stack0 := stack0) h hd mem
  obtain ⟨m, ck, l1, l2, l3, l4⟩ := loop_sim ctx hiD hoD rfl lines (fuel := cE.code.length) hR ci h3
    (by show cE.maxDss ≤ stack0.length; omega) (by show _ ≤ 0 + _; omega) h.plain hrun
  have hcl := lines_code lines h3
  rw [hcode0] at hcl
  have hshort := h.short
  have htake : ev.code.take (ev.code.length % 65536) = cE.code := by
    rw [h8, Nat.mod_eq_of_lt (by simp at hcl; omega), List.take_length]
  have hsp : s'.err = false → m.sp = 0 := by
    intro he
    obtain ⟨rfl, _⟩ := l3 (by rw [he]; simp)
    have := l2.types
    rw [h4] at this
    have hst : s'.stack = [] := by simpa using this
    have := l2.holds.1
    rw [hst] at this
    simpa [flat] using this
  refine ⟨m, ?_, l2.mem, hsp, ?_⟩
  · unfold execute
    simp only [htake, l1]
    rw [l2.err]
    cases he : s'.err
    · obtain ⟨_, hpc⟩ := l3 (by rw [he]; simp)
      simp [hsp he, hpc]
    · simp
  · intro hns v hv t ht
    obtain ⟨rfl, _⟩ := l3 hns
    rw [h6, l2.outs] at hv
    obtain ⟨u, hu, rfl⟩ := List.mem_map.1 hv
    rw [upd_name] at ht ⊢
    rw [upd_ext, upd_loc]
    refine ⟨by unfold upd; rw [ht], ?_⟩
    intro hx
    exact l2.data.out u hu hx t ht

/-- In safe mode the calculation is always defined, so `Execute` is always safe. -/
theorem c39_safe {lib N lines e ev} (h : Compiled lib N lines e ev) {data : List Word} (hd : UserData ev data)
    (mem : Nat → Word) :
    ∃ s', run true lib N (inDecl e) (outDecl e) (start ev data mem) lines = some s' ∧
      ∀ stack0 : List Word, stack0.length = ev.stackSize →
        ∃ m, execute true lib ev stack0 data mem = some (!s'.err, m) ∧ m.mem = s'.mem := by
  obtain ⟨ins, outs0, B, L, c0, cE, ctx, ci, h3, h4, h6, h7, h8, h9, hcode0, hiD, hoD, hR⟩ :=
    start_rel (stack0 := List.replicate ev.stackSize 0) h hd mem
  obtain ⟨s', hs'⟩ := run_total ctx hiD hoD rfl (safe := true) (.inl rfl) lines hR ci h3
    (by show cE.maxDss ≤ (List.replicate ev.stackSize 0).length; rw [List.length_replicate]; omega) h.plain
    (by intro n t ht; cases ht)
  refine ⟨s', hs', ?_⟩
  intro stack0 hs
  obtain ⟨m, a, b, _⟩ := c39_run h hd hs mem true hs'
  exact ⟨m, a, b⟩

/-- In fast mode too, as long as no error occurs: same result as in safe mode. -/
theorem c39_fast {lib N lines e ev} (h : Compiled lib N lines e ev) {data stack0 : List Word} (hd : UserData ev data)
    (hs : stack0.length = ev.stackSize) (mem : Nat → Word) {s' : St}
    (hrun : run true lib N (inDecl e) (outDecl e) (start ev data mem) lines = some s') (he : s'.err = false) :
    ∃ m, execute false lib ev stack0 data mem = some (true, m) ∧ m.mem = s'.mem ∧ m.sp = 0 ∧
      ∀ v ∈ ev.outs, ∀ t, s'.written v.name = some t →
        v.type = t ∧ (v.ext = none → readW m.data v.loc t.words = some (s'.out v.name)) := by
  obtain ⟨m, a, b, c, d⟩ := c39_run h hd hs mem false (run_fast lines hrun he)
  exact ⟨m, by rw [he] at a; exact a, b, c he, d rfl⟩

/-- Or whatever happens, when no function of the library ignores its arguments after an error. -/
theorem c39_fast_noskip {lib N lines e ev} (h : Compiled lib N lines e ev)
    (hskip : ∀ r ∈ lib, ∀ f, r.act ≠ .op true f) {data : List Word} (hd : UserData ev data) (mem : Nat → Word) :
    ∃ s', run false lib N (inDecl e) (outDecl e) (start ev data mem) lines = some s' ∧
      ∀ stack0 : List Word, stack0.length = ev.stackSize →
        ∃ m, execute false lib ev stack0 data mem = some (!s'.err, m) ∧ m.mem = s'.mem := by
  obtain ⟨ins, outs0, B, L, c0, cE, ctx, ci, h3, h4, h6, h7, h8, h9, hcode0, hiD, hoD, hR⟩ :=
    start_rel (stack0 := List.replicate ev.stackSize 0) h hd mem
  obtain ⟨s', hs'⟩ := run_total ctx hiD hoD rfl (safe := false) (.inr hskip) lines hR ci h3
    (by show cE.maxDss ≤ (List.replicate ev.stackSize 0).length; rw [List.length_replicate]; omega) h.plain
    (by intro n t ht; cases ht)
  refine ⟨s', hs', ?_⟩
  intro stack0 hs
  obtain ⟨m, a, b, _⟩ := c39_run h hd hs mem false hs'
  exact ⟨m, a, b⟩

/-- The registered functions satisfy what the theorems ask of a library, whatever the arithmetic. -/
theorem c39_builtin (A : Arith) (hA : A.Ok) : ∀ r ∈ builtin A, r.Ok := builtin_ok hA

/-! ## Concrete programs, with the registered functions -/

/-- Arithmetic for the examples: 32-bit addition with overflow. -/
def demoArith : Arith where
  conv _ u v := (List.replicate u.words (v.headD 0), false)
  op n _ os vs :=
    if n = "ADD" ∧ os.map Ty.words = [1] then
      ([[((vs.headD []).headD 0 + (vs.getD 1 []).headD 0) % 2 ^ 32]],
        decide (2 ^ 31 ≤ (vs.headD []).headD 0 + (vs.getD 1 []).headD 0))
    else (os.map fun t => List.replicate t.words 0, false)

/-- `int32` and two literals. -/
def demoNames : Names where
  typeOf s := if s = "int32" then .i32 else .void
  literal t s := if t = .i32 then (if s = "2000000000" then some [2000000000] else if s = "1" then some [1] else none) else none

theorem demoArith_ok : demoArith.Ok := by
  refine ⟨fun t u v _ => by simp [demoArith], ?_⟩
  intro n is os vs _
  unfold demoArith
  simp only
  split
  · rename_i h; rw [h.2]; rfl
  · simp

theorem demoNames_ok : demoNames.Ok := by
  constructor
  · intro t s v h
    unfold demoNames at h
    simp only at h
    split at h
    · rename_i ht
      subst ht
      split at h
      · injection h with h; subst h; rfl
      · split at h
        · injection h with h; subst h; rfl
        · cases h
    · cases h
  · intro s
    unfold demoNames
    simp only
    split <;> decide

/-- Outcome of compiling with the settings and running, as (compiled, result, first words of the data). -/
def demo (safe : Bool) (ops : List SetOp) (lines : List (List String)) (times : Nat) (put : List Word → List Word) :
    Option (Bool × Option (Bool × List Word)) :=
  match extract demoNames Ev.new lines with
  | none => none
  | some e0 =>
    let rec comp : Nat → Ev → Option (Bool × Ev)
      | 0, e => some (true, e)
      | k + 1, e =>
        match compile (builtin demoArith) demoNames (fun _ => 0) e lines with
        | .ok (true, e') => comp k e'
        | .ok (false, e') => some (false, e')
        | _ => none
    match comp times (ops.foldl setOp e0) with
    | none => none
    | some (b, ev) =>
      some (b, (execute safe (builtin demoArith) ev (List.replicate ev.stackSize 0) (put ev.data) (fun _ => 0)).map
        fun r => (r.1, r.2.data))

/-- `y = a + b + 1`. -/
def sumProgram : List (List String) :=
  [["READ", "a"], ["READ", "b"], ["ADD"], ["CONST", "int32", "1"], ["ADD"], ["WRITE", "y"]]

/-- The program compiles: the hypotheses of the theorems are met. -/
example : ∃ e ev, Compiled (builtin demoArith) demoNames sumProgram e ev ∧ ev.stackSize = 2 := by
  have h1 : ∃ e0, extract demoNames Ev.new sumProgram = some e0 := by
    cases h : extract demoNames Ev.new sumProgram with
    | some e0 => exact ⟨e0, rfl⟩
    | none => exact absurd h (by
        intro h
        have : (extract demoNames Ev.new sumProgram).isSome = true := by decide +kernel
        rw [h] at this; cases this)
  obtain ⟨e0, he0⟩ := h1
  let ops : List SetOp := [.inType "a" .i32, .inType "b" .i32]
  let e := ops.foldl setOp e0
  have h2 : ∃ ev, compile (builtin demoArith) demoNames (fun _ => 0) e sumProgram = .ok (true, ev) ∧ ev.stackSize = 2 := by
    have : ((extract demoNames Ev.new sumProgram).map fun e0 =>
        match compile (builtin demoArith) demoNames (fun _ => 0) (ops.foldl setOp e0) sumProgram with
        | .ok (true, ev) => decide (ev.stackSize = 2)
        | _ => false) = some true := by decide +kernel
    rw [he0, Option.map_some, Option.some.injEq] at this
    split at this
    · rename_i ev hev
      exact ⟨ev, hev, by simpa using this⟩
    · cases this
  obtain ⟨ev, hev, hsz⟩ := h2
  refine ⟨e, ev, ⟨c39_builtin _ demoArith_ok, demoNames_ok, by decide, by decide, ⟨e0, ops, he0, ?_, rfl⟩, ⟨_, hev⟩⟩, hsz⟩
  intro op hop
  simp only [ops, List.mem_cons, List.not_mem_nil, or_false] at hop
  rcases hop with rfl | rfl <;> (show Ty.i32.words ≤ 2; decide)

/-- Non-trivial instance: with `a = 5`, `b = 7` at their places, the program delivers 13 in both modes. -/
example : demo true [.inType "a" .i32, .inType "b" .i32] sumProgram 1 (fun d => d.set 1 5 |>.set 2 7) =
    some (true, some (true, [1, 5, 7, 13, 0])) ∧
    demo false [.inType "a" .i32, .inType "b" .i32] sumProgram 1 (fun d => d.set 1 5 |>.set 2 7) =
    some (true, some (true, [1, 5, 7, 13, 0])) := by decide +kernel

/-- The same in safe mode when the addition overflows: the error is reported. -/
example : demo true [.inType "a" .i32, .inType "b" .i32] sumProgram 1 (fun d => d.set 1 2000000000 |>.set 2 2000000000) =
    some (true, some (false, [1, 2000000000, 2000000000, 0, 0])) := by decide +kernel

/-- After an overflow the integer additions leave their arguments on the stack. In fast mode the program goes on and
runs over the end of the stack. -/
def overflowProgram : List (List String) :=
  [["CONST", "int32", "2000000000"], ["CONST", "int32", "2000000000"], ["ADD"], ["CONST", "int32", "1"], ["ADD"],
   ["CONST", "int32", "1"], ["ADD"], ["WRITE", "y"]]

theorem c39_fast_refuted : demo false [] overflowProgram 1 id = some (true, none) ∧
    (demo true [] overflowProgram 1 id).map (·.2.map (·.1)) = some (some false) := by decide +kernel

/-- The names `RREAD` and `RWRITE` are functions of the library: a program that uses them as commands compiles, and
takes the next instruction for an address. -/
theorem c39_rread_refuted : demo true [] [["RREAD"], ["WRITE", "y"]] 1 id = some (true, none) := by decide +kernel

/-- A second `Compile` keeps the places of the inputs and gives the same places to the outputs: the program reads
outside the data memory. -/
theorem c39_recompile_refuted :
    demo true [.inType "a" .i32, .inType "b" .i32] [["READ", "a"], ["WRITE", "x"], ["READ", "b"], ["WRITE", "y"]] 1 id =
      some (true, some (true, [0, 0, 0, 0, 0, 0])) ∧
    demo true [.inType "a" .i32, .inType "b" .i32, .inType "c" .i32] [["READ", "a"], ["READ", "b"], ["READ", "c"], ["ADD"], ["ADD"], ["WRITE", "y"]] 2 id =
      some (true, none) := by decide +kernel

end Verif.Rt
