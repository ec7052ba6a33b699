import Verif.Proof.StructData3
import Verif.Props.ConfigDb

namespace Verif.ConfigDb
open Verif.Spec.ConfigDb

variable {V : Type}

/-- A new database after the calls `ops`; `Write(name, x)` of a structure: the flag returned and the results of the calls made afterwards. -/
def wrote (text : Name → V) (ops : List (Op V)) (name : Name) (x : Rec V) (rest : List (Op V)) : Option (Bool × List (Out V)) :=
  (run (init : St V) ops).bind fun s =>
  (writeRec text s.2 name x).bind fun w =>
  (run w.2 rest).map fun r => (w.1, r.1)

/-- A new database after the calls `ops`; `Read(name, dest)` into a structure: its new value (`none`: it returned false) and the results
of the calls made afterwards. -/
def readBack (reg : Name → Option (List Name)) (asText : V → Option Name) (conv : V → V → Option V) (ops : List (Op V)) (name : Name)
    (dest : Rec V) (rest : List (Op V)) : Option (Option (Rec V) × List (Out V)) :=
  (run (init : St V) ops).bind fun s =>
  (readRec reg asText conv s.2 name dest).bind fun w =>
  (run w.2 rest).map fun r => (w.1, r.1)

/-- A new database after the calls `ops`; `Write(name, x)`; the calls `mid`; `Read(name2, dest)`; the calls `rest`. -/
def wroteRead (reg : Name → Option (List Name)) (asText : V → Option Name) (conv : V → V → Option V) (text : Name → V) (ops : List (Op V))
    (name : Name) (x : Rec V) (mid : List (Op V)) (name2 : Name) (dest : Rec V) (rest : List (Op V)) :
    Option (Bool × Option (Rec V) × List (Out V)) :=
  (run (init : St V) ops).bind fun s =>
  (writeRec text s.2 name x).bind fun w =>
  (run w.2 mid).bind fun m =>
  (readRec reg asText conv m.2 name2 dest).bind fun d =>
  (run d.2 rest).map fun r => (w.1, d.1, r.1)

/-- The tree `b` is the tree `a` with the structure `x` in the new child `name` of the current node. -/
structure Gained (text : Name → V) (a b : Db V) (name : Name) (x : Rec V) : Prop where
  cur : b.cur = a.cur
  last : b.item a.cur = some (.node (children a.item a.cur ++ [name]))
  shows : Shows text true b.item (a.cur ++ [name]) x
  rest : ∀ q, q ≠ a.cur → ¬ (a.cur ++ [name]) <+: q → b.item q = a.item q

private theorem start (ops : List (Op V)) (ha : allAllowed (empty : Db V) ops = true) :
    ∃ s, run (init : St V) ops = some ((Spec.ConfigDb.run empty ops).1, s) ∧ Sim s (tree ops) ∧ RootName s :=
  sim_run sim_init ⟨rfl, Nat.zero_lt_one⟩ ops ha

/-- Going back to the node where the call was made. -/
private theorem restore {s s' : St V} {db db' : Db V} (S : Sim s db) (S' : Sim s' db') (R : RootName s') (g : Grow s s') :
    Sim { s' with cur := s.cur } { db' with cur := db.cur } ∧ RootName { s' with cur := s.cur } := by
  obtain ⟨c, hc, hw⟩ := S.cur
  exact ⟨⟨S'.rr, c, hc, g.walk S S' _ _ hw⟩, R⟩

private theorem write_sim (text : Name → V) {s : St V} {db : Db V} (S : Sim s db) (hr : RootName s) {name : Name} (hn : NameOk name)
    (hf : db.item (db.cur ++ [name]) = none) (x : Rec V) (hx : Proper x) :
    ∃ s' db', writeRec text s name x = some (true, s') ∧ Sim s' db' ∧ RootName s' ∧ Gained text db db' name x := by
  obtain ⟨s1, s2, s3, db', e1, e2, e3, ⟨S3, R3, G3, c3, A3⟩, sh⟩ := write_child text (n := name) hn (toRec_spec text x hx) s db S hr hf
  obtain ⟨s1', f1, S1, R1, G1⟩ := do_create S hr hn hf
  rw [e1] at f1
  simp only [Option.some.injEq, Prod.mk.injEq, true_and] at f1
  subst f1
  have hat : addNode db.item db.cur name (db.cur ++ [name]) = some (.node []) := by unfold addNode; rw [if_pos rfl]
  obtain ⟨s2', db2, f2, S2, R2, G2, c2, sh2, out2⟩ := toRec_spec text x hx s1 _ S1 R1 hat (fun m r => by
    show addNode _ _ _ _ = _
    rw [addNode_below (by simp)]; exact S.rr.none_below hf _)
  rw [e2] at f2
  simp only [Option.some.injEq, Prod.mk.injEq, true_and] at f2
  subst f2
  obtain ⟨Sr, Rr⟩ := restore S S2 R2 (G1.trans G2)
  refine ⟨_, _, by simp only [writeRec, e1, Option.bind_some, if_true, e2], Sr, Rr, ⟨rfl, ?_, sh2, fun q hq hb => ?_⟩⟩
  · show db2.item db.cur = _
    rw [out2 _ not_below_self]
    show addNode db.item db.cur name db.cur = _
    unfold addNode
    rw [if_neg (by intro h; have := congrArg List.length h; simp at this), if_pos rfl]
  · show db2.item q = _
    rw [out2 q hb]
    show addNode db.item db.cur name q = _
    unfold addNode
    rw [if_neg (by rintro rfl; exact hb (List.prefix_refl _)), if_neg hq]

private theorem read_sim {reg : Name → Option (List Name)} {asText : V → Option Name} {conv : V → V → Option V} {text : Name → V}
    {named : Bool} (ht : ∀ c, asText (text c) = some c) {s : St V} {db : Db V} (S : Sim s db) (hr : RootName s) {name : Name}
    (hn : NameOk name) (x dest : Rec V) (hx : Proper x) (hf : Fits conv dest x) (hk : Known reg x)
    (h : Shows text named db.item (db.cur ++ [name]) x) :
    ∃ s', readRec reg asText conv s name dest = some (some x, s') ∧ Sim s' db ∧ RootName s' := by
  obtain ⟨s1, e1, S1, R1, G1⟩ := do_move S hr (n := name) hn (shows_node h)
  obtain ⟨s2, e2, S2, R2, G2⟩ := fromRec_spec ht x dest hx hf hk s1 _ S1 R1 h
  obtain ⟨Sr, Rr⟩ := restore S S2 R2 (G1.trans G2)
  exact ⟨_, by simp only [readRec, e1, Option.bind_some, if_true, e2], Sr, Rr⟩

/-- **C92.** After any calls, writing a structure under a name that is not used returns true and adds one child with that name to the
current node: the name of the class, then the members, in the order and with the names of the class, at every depth, with one
node for each element of a vector or matrix of structures.  The rest of the configuration and the current node are as before. -/
theorem c92_write (text : Name → V) (ops : List (Op V)) (ha : allAllowed (empty : Db V) ops = true) (name : Name) (hn : NameOk name)
    (hf : (tree ops).item ((tree ops).cur ++ [name]) = none) (x : Rec V) (hx : Proper x) :
    ∃ db', Gained text (tree ops) db' name x ∧ ∀ rest, allAllowed db' rest = true →
      wrote text ops name x rest = some (true, (Spec.ConfigDb.run db' rest).1) := by
  obtain ⟨s, e, S, hr⟩ := start ops ha
  obtain ⟨s', db', e1, S1, R1, g⟩ := write_sim text S hr hn hf x hx
  refine ⟨db', g, fun rest har => ?_⟩
  obtain ⟨_, e2, _⟩ := sim_run S1 R1 rest har
  simp only [wrote, e, e1, e2, Option.bind_some, Option.map_some]

/-- **C92.** Reading a structure from a node that has its members, in their order, at every depth, gives the values that are there,
whatever was in the structure; the configuration and the current node are as before.  The node may have the name of the class
as first child (`named`), registered or not, or may not have it.  `Fits`: the values can be converted to the members as they are. -/
theorem c92_read (reg : Name → Option (List Name)) (asText : V → Option Name) (conv : V → V → Option V) (text : Name → V)
    (ht : ∀ c, asText (text c) = some c) (ops : List (Op V)) (ha : allAllowed (empty : Db V) ops = true) (name : Name) (hn : NameOk name)
    (x dest : Rec V) (hx : Proper x) (hf : Fits conv dest x) (hk : Known reg x) (named : Bool)
    (h : Shows text named (tree ops).item ((tree ops).cur ++ [name]) x) (rest : List (Op V)) (har : allAllowed (tree ops) rest = true) :
    readBack reg asText conv ops name dest rest = some (some x, (Spec.ConfigDb.run (tree ops) rest).1) := by
  obtain ⟨s, e, S, hr⟩ := start ops ha
  obtain ⟨s', e1, S1, R1⟩ := read_sim ht S hr hn x dest hx hf hk h
  obtain ⟨_, e2, _⟩ := sim_run S1 R1 rest har
  simp only [readBack, e, e1, e2, Option.bind_some, Option.map_some]

/-- **C92.** A structure that has been written and is read back, with any calls in between that leave it there, is the same. -/
theorem c92_round_partial (reg : Name → Option (List Name)) (asText : V → Option Name) (conv : V → V → Option V) (text : Name → V)
    (ht : ∀ c, asText (text c) = some c) (ops : List (Op V)) (ha : allAllowed (empty : Db V) ops = true) (name : Name) (hn : NameOk name)
    (hfree : (tree ops).item ((tree ops).cur ++ [name]) = none) (x dest : Rec V) (hx : Proper x) (hf : Fits conv dest x)
    (hk : Known reg x) :
    ∃ db', Gained text (tree ops) db' name x ∧
      (∀ rest, allAllowed db' rest = true →
        wroteRead reg asText conv text ops name x [] name dest rest = some (true, some x, (Spec.ConfigDb.run db' rest).1)) ∧
      ∀ mid name2 rest, allAllowed db' mid = true → NameOk name2 →
        Shows text true (Spec.ConfigDb.run db' mid).2.item ((Spec.ConfigDb.run db' mid).2.cur ++ [name2]) x →
        allAllowed (Spec.ConfigDb.run db' mid).2 rest = true →
        wroteRead reg asText conv text ops name x mid name2 dest rest =
          some (true, some x, (Spec.ConfigDb.run (Spec.ConfigDb.run db' mid).2 rest).1) := by
  obtain ⟨s, e, S, hr⟩ := start ops ha
  obtain ⟨s', db', e1, S1, R1, g⟩ := write_sim text S hr hn hfree x hx
  have key : ∀ mid name2 rest, allAllowed db' mid = true → NameOk name2 →
        Shows text true (Spec.ConfigDb.run db' mid).2.item ((Spec.ConfigDb.run db' mid).2.cur ++ [name2]) x →
        allAllowed (Spec.ConfigDb.run db' mid).2 rest = true →
        wroteRead reg asText conv text ops name x mid name2 dest rest =
          some (true, some x, (Spec.ConfigDb.run (Spec.ConfigDb.run db' mid).2 rest).1) := by
    intro mid name2 rest ham hn2 hsh har
    obtain ⟨s2, e2, S2, R2⟩ := sim_run S1 R1 mid ham
    obtain ⟨s3, e3, S3, R3⟩ := read_sim ht S2 R2 hn2 x dest hx hf hk hsh
    obtain ⟨_, e4, _⟩ := sim_run S3 R3 rest har
    simp only [wroteRead, e, e1, e2, e3, e4, Option.bind_some, Option.map_some]
  exact ⟨db', g, fun rest har => key [] name rest rfl hn (by
    show Shows text true db'.item (db'.cur ++ [name]) x
    rw [g.cur]; exact g.shows) har, key⟩

/-- **C92.** A name that is in use, by a value or a node, is refused: nothing changes. -/
theorem c92_used (text : Name → V) (ops : List (Op V)) (ha : allAllowed (empty : Db V) ops = true) (name : Name) (hn : NameOk name)
    (hf : (tree ops).item ((tree ops).cur ++ [name]) ≠ none) (x : Rec V) (rest : List (Op V))
    (har : allAllowed (tree ops) rest = true) :
    wrote text ops name x rest = some (false, (Spec.ConfigDb.run (tree ops) rest).1) := by
  obtain ⟨s, e, S, hr⟩ := start ops ha
  obtain ⟨s1, e1, S1, R1⟩ := call_sim S hr (.createRelative name) (by
    simp [allowed, Good.path (n := name) hn, Good.names (n := name) hn, through_one])
  have hst : Spec.ConfigDb.step (tree ops) (.createRelative name) = (.flag false, tree ops) := by
    simp only [Spec.ConfigDb.step, create, Good.names (n := name) hn]
    rw [if_neg (fun h => hf h.2)]
  rw [hst] at e1 S1
  have hc : s1.cur = s.cur := by
    simp only [call, step, createNodes] at e1
    split at e1
    · cases hl : createLoop (name.length + 1) s.heap s.next s.cur name false with
      | none => rw [hl] at e1; simp at e1
      | some r =>
        rw [hl] at e1
        simp only [Option.bind_some, Option.map_some, flagOf, Option.some.injEq, Prod.mk.injEq] at e1
        rw [← e1.2, e1.1]; rfl
    · simp only [Option.map_some, Option.some.injEq, Prod.mk.injEq] at e1
      rw [← e1.2]
  have hw : writeRec text s name x = some (false, s1) := by
    have : ({ s1 with cur := s.cur } : St V) = s1 := by rw [← hc]
    simp only [writeRec, e1, flagOf, Option.bind_some, Bool.false_eq_true, if_false, this]
  obtain ⟨_, e2, _⟩ := sim_run S1 R1 rest har
  simp only [wrote, e, hw, e2, Option.bind_some, Option.map_some]

/-- **C92.** Where there is no node nothing is read, and nothing changes. -/
theorem c92_absent (reg : Name → Option (List Name)) (asText : V → Option Name) (conv : V → V → Option V) (ops : List (Op V))
    (ha : allAllowed (empty : Db V) ops = true) (name : Name) (hn : NameOk name)
    (hf : isNode ((tree ops).item ((tree ops).cur ++ [name])) = false) (dest : Rec V) (rest : List (Op V))
    (har : allAllowed (tree ops) rest = true) :
    readBack reg asText conv ops name dest rest = some (none, (Spec.ConfigDb.run (tree ops) rest).1) := by
  obtain ⟨s, e, S, hr⟩ := start ops ha
  obtain ⟨s1, e1, S1, R1⟩ := call_sim S hr (.moveRelative name) (by simp [allowed, Good.path (n := name) hn])
  have hst : Spec.ConfigDb.step (tree ops) (.moveRelative name) = (.flag false, tree ops) := by
    simp only [Spec.ConfigDb.step, moveTo, Good.names (n := name) hn]
    rw [if_neg (fun h => by rw [hf] at h; simp at h)]
  rw [hst] at e1 S1
  have hc : s1.cur = s.cur := by
    obtain ⟨c, hc, _⟩ := S.cur
    simp only [call, step, hc, Option.bind_some] at e1
    split at e1
    · simp [flagOf] at e1
    · simp only [Option.map_some, Option.some.injEq, Prod.mk.injEq] at e1
      rw [← e1.2]
  have hw : readRec reg asText conv s name dest = some (none, s1) := by
    have : ({ s1 with cur := s.cur } : St V) = s1 := by rw [← hc]
    simp only [readRec, e1, flagOf, Option.bind_some, Bool.false_eq_true, if_false, this]
  obtain ⟨_, e2, _⟩ := sim_run S1 R1 rest har
  simp only [readBack, e, hw, e2, Option.bind_some, Option.map_some]

private theorem flat_run {reg : Name → Option (List Name)} {asText : V → Option Name} {conv : V → V → Option V} {mode : Mode}
    {s : St V} {found : Nat → Option V} (ms : List (Name × V)) : ∀ i,
    (∀ j, j < ms.length → ∃ c, childFor mode s (i + j) (i + j) = some c ∧ valueAt s c = some (found (i + j))) →
    fromMems reg asText conv mode i i (flat ms) s = some ((taken conv found i ms).map flat, s) := by
  induction ms with
  | nil => intro i _; simp [flat, fromMems, taken]
  | cons m t ih =>
    intro i h
    obtain ⟨c, h1, h2⟩ := h 0 (by simp)
    have := ih (i + 1) (fun j hj => by
      have := h (j + 1) (by simpa using hj)
      rwa [show i + (j + 1) = i + 1 + j from by omega] at this)
    simp only [Nat.add_zero] at h1 h2
    simp only [flat, fromMems, h1, h2, Option.bind_some, taken]
    cases hf : found i with
    | none => simp
    | some v =>
      cases hc : conv m.2 v with
      | none => simp [hc]
      | some w =>
        simp only [Option.bind_some, hc, this]
        cases taken conv found (i + 1) t <;> simp [flat]

private theorem restore_read {s s1 : St V} {db : Db V} (S : Sim s db) {p : List Name} (S1 : Sim s1 { db with cur := p }) (R1 : RootName s1)
    (G : Grow s s1) : Sim { s1 with cur := s.cur } db ∧ RootName { s1 with cur := s.cur } := by
  have := restore S S1 R1 G
  exact this

/-- **C92.** A structure of values is read, from a node with the name of a registered class, by the names of the members of that class, whatever
is in the node: the answer is true exactly when each of them is a value there that can be converted.  The array of the names ends with an
empty one. -/
theorem c92_flat_named (reg : Name → Option (List Name)) (asText : V → Option Name) (conv : V → V → Option V) (ops : List (Op V))
    (ha : allAllowed (empty : Db V) ops = true) (name : Name) (hn : NameOk name)
    (hf : isNode ((tree ops).item ((tree ops).cur ++ [name])) = true) (v : V) (c : Name) (names : List Name)
    (hc : (tree ops).item ((tree ops).cur ++ [name] ++ ["Class".toList]) = some (.leaf v)) (hv : asText v = some c) (hr : reg c = some names)
    (cls : Name) (ms : List (Name × V)) (hl : ms.length ≤ names.length + 1) (rest : List (Op V)) (har : allAllowed (tree ops) rest = true) :
    readBack reg asText conv ops name (.mk cls (flat ms)) rest =
      some ((taken conv (fun i => leafAt (tree ops).item ((tree ops).cur ++ [name] ++ [names.getD i []])) 0 ms).map (fun r => .mk cls (flat r)),
        (Spec.ConfigDb.run (tree ops) rest).1) := by
  obtain ⟨s, e, S, hR⟩ := start ops ha
  obtain ⟨s1, e1, S1, R1, G1⟩ := do_move S hR (n := name) hn hf
  obtain ⟨Sr, Rr⟩ := restore_read S S1 R1 G1
  have hva : ∀ n, valueAt s1 (some n) = some (leafAt (tree ops).item ((tree ops).cur ++ [name] ++ [n])) := by
    intro n; rw [value_at S1 R1]; rfl
  have hcl : leafAt (tree ops).item ((tree ops).cur ++ [name] ++ ["Class".toList]) = some v := by simp only [leafAt, hc]
  have hm : modeOf reg (asText v) = .byName names := by simp only [hv, modeOf, hr]
  have hrun := flat_run (reg := reg) (asText := asText) (conv := conv) (mode := .byName names) (s := s1)
    (found := fun i => leafAt (tree ops).item ((tree ops).cur ++ [name] ++ [names.getD i []])) ms 0 (fun j hj => by
      refine ⟨some (names.getD (0 + j) []), ?_, hva _⟩
      simp only [childFor, Nat.zero_add]
      by_cases hlt : j < names.length
      · rw [if_pos hlt, List.getD_eq_getElem?_getD, List.getElem?_eq_getElem hlt]; rfl
      · rw [if_neg hlt, if_pos (by omega), List.getD_eq_getElem?_getD, List.getElem?_eq_none (by omega)]; rfl)
  have hrec : readRec reg asText conv s name (.mk cls (flat ms)) = some
      ((taken conv (fun i => leafAt (tree ops).item ((tree ops).cur ++ [name] ++ [names.getD i []])) 0 ms).map (fun r => .mk cls (flat r)),
        { s1 with cur := s.cur }) := by
    simp only [readRec, e1, Option.bind_some, if_true, fromRec, hva, hcl, hm, hrun, Option.map_map]
    rfl
  obtain ⟨_, e2, _⟩ := sim_run Sr Rr rest har
  simp only [readBack, e, hrec, e2, Option.bind_some, Option.map_some]

/-- **C92.** Without a registered class it is read by position, whatever the names; `k` is 1 when there is a `Class` that can be read as a text. -/
theorem c92_flat_position (reg : Name → Option (List Name)) (asText : V → Option Name) (conv : V → V → Option V) (ops : List (Op V))
    (ha : allAllowed (empty : Db V) ops = true) (name : Name) (hn : NameOk name)
    (hf : isNode ((tree ops).item ((tree ops).cur ++ [name])) = true) (k : Nat)
    (hk : ((leafAt (tree ops).item ((tree ops).cur ++ [name] ++ ["Class".toList])).bind asText = none ∧ k = 0) ∨
      (∃ c, (leafAt (tree ops).item ((tree ops).cur ++ [name] ++ ["Class".toList])).bind asText = some c ∧ reg c = none ∧ k = 1))
    (cls : Name) (ms : List (Name × V)) (rest : List (Op V)) (har : allAllowed (tree ops) rest = true) :
    readBack reg asText conv ops name (.mk cls (flat ms)) rest =
      some ((taken conv (fun i => (children (tree ops).item ((tree ops).cur ++ [name]))[i + k]?.bind fun c =>
          leafAt (tree ops).item ((tree ops).cur ++ [name] ++ [c])) 0 ms).map (fun r => .mk cls (flat r)),
        (Spec.ConfigDb.run (tree ops) rest).1) := by
  obtain ⟨s, e, S, hR⟩ := start ops ha
  obtain ⟨s1, e1, S1, R1, G1⟩ := do_move S hR (n := name) hn hf
  obtain ⟨Sr, Rr⟩ := restore_read S S1 R1 G1
  have hva : ∀ n, valueAt s1 (some n) = some (leafAt (tree ops).item ((tree ops).cur ++ [name] ++ [n])) := by
    intro n; rw [value_at S1 R1]; rfl
  have hm : modeOf reg ((leafAt (tree ops).item ((tree ops).cur ++ [name] ++ ["Class".toList])).bind asText) = .byPosition k := by
    rcases hk with ⟨h1, rfl⟩ | ⟨c, h1, h2, rfl⟩
    · simp only [h1, modeOf]
    · simp only [h1, modeOf, h2]
  have hrun := flat_run (reg := reg) (asText := asText) (conv := conv) (mode := .byPosition k) (s := s1)
    (found := fun i => (children (tree ops).item ((tree ops).cur ++ [name]))[i + k]?.bind fun c =>
      leafAt (tree ops).item ((tree ops).cur ++ [name] ++ [c])) ms 0 (fun j _ => by
      refine ⟨(children (tree ops).item ((tree ops).cur ++ [name]))[0 + j + k]?, ?_, ?_⟩
      · simp only [childFor]; rw [child_name_at S1 R1]
      · cases (children (tree ops).item ((tree ops).cur ++ [name]))[0 + j + k]? with
        | none => rfl
        | some c => exact hva c)
  have hrec : readRec reg asText conv s name (.mk cls (flat ms)) = some
      ((taken conv (fun i => (children (tree ops).item ((tree ops).cur ++ [name]))[i + k]?.bind fun c =>
          leafAt (tree ops).item ((tree ops).cur ++ [name] ++ [c])) 0 ms).map (fun r => .mk cls (flat r)),
        { s1 with cur := s.cur }) := by
    simp only [readRec, e1, Option.bind_some, if_true, fromRec, hva, hm, hrun, Option.map_map]
    rfl
  obtain ⟨_, e2, _⟩ := sim_run Sr Rr rest har
  simp only [readBack, e, hrec, e2, Option.bind_some, Option.map_some]

deriving instance DecidableEq for Rec, Mems, Recs

/-- Values for the examples: numbers and texts. -/
inductive Val where
  | num (n : Nat)
  | txt (t : Name)
deriving DecidableEq

def Val.text : Val → Option Name
  | .txt t => some t
  | .num _ => none

private def keep : Val → Val → Option Val
  | .num _, .num n => some (.num n)
  | .txt _, .txt n => some (.txt n)
  | _, _ => none

private def pair (a b : Nat) : Rec Val := .mk ['P'] (.basic ['A'] (.num a) (.basic ['B'] (.num b) .nil))

/-- **C92.** Without the name of the class the names do not count: a node with `B` before `A` is read, with success, with the
two values exchanged. -/
theorem c92_position_fails : readBack (fun _ => some [['A'], ['B']]) Val.text keep
    [.createRelative ['N'], .write ['B'] (.num 2), .write ['A'] (.num 1), .moveToRoot] ['N'] (pair 0 0) [] = some (some (pair 2 1), []) := by
  decide +kernel

/-- **C92.** The name of another class with fewer members makes the read go outside the array of its members. -/
theorem c92_outside_fails : readBack (fun c => if c = ['S'] then some [] else none) Val.text keep
    [.createRelative ['N'], .write "Class".toList (.txt ['S']), .createRelative "V[0]".toList, .moveToAncestor 1,
      .createRelative "V[1]".toList, .moveToAncestor 1, .write ['A'] (.num 1), .moveToRoot] ['N']
    (.mk ['P'] (.many ['V'] [2] (.cons (.mk ['Q'] .nil) (.cons (.mk ['Q'] .nil) .nil)) (.basic ['A'] (.num 0) .nil))) [] = none := by
  decide +kernel

/-- A structure with a member `Class` that is a structure: the name is taken. -/
private def taker : Rec Val := .mk ['P'] (.one "Class".toList (pair 1 2) (.basic ['Z'] (.num 3) .nil))

/-- **C92.** A structure with a member `Class` that is a structure, or with a member without name, cannot be written: the answer is false, also
when it is a member of a structure or an element of a vector. -/
theorem c92_class_fails :
    (wrote Val.txt [] ['N'] taker []).map (·.1) = some false ∧
    (wrote Val.txt [] ['N'] (.mk ['P'] (.one ['V'] taker .nil)) []).map (·.1) = some false ∧
    (wrote Val.txt [] ['N'] (.mk ['P'] (.many ['V'] [2] (.cons taker (.cons (pair 1 2) .nil)) .nil)) []).map (·.1) = some false ∧
    (wrote Val.txt [] ['N'] (.mk ['P'] (.many "Class".toList [] (.cons (pair 1 2) .nil) .nil)) []).map (·.1) = some false ∧
    (wrote Val.txt [] ['N'] (.mk ['P'] (.basic [] (.num 1) .nil)) []).map (·.1) = some false := by decide +kernel

example : readBack (fun c => if c = ['S'] then some [['A']] else none) Val.text keep
    [.createRelative ['N'], .write "Class".toList (.txt ['S']), .write ['A'] (.num 1), .write ['B'] (.num 2), .moveToRoot] ['N']
    (.mk ['P'] (flat [(['A'], .num 0), (['B'], .num 0)])) [] = some (none, []) := by decide +kernel

/-- A structure with a value, a structure and a vector of two structures. -/
private def whole : Rec Val := .mk ['W'] (.basic ['N'] (.num 7) (.one ['P'] (pair 1 2) (.many ['V'] [2]
  (.cons (pair 3 4) (.cons (pair 5 6) .nil)) .nil)))

example : Proper whole := by
  have h : tuples [2] = [[0], [1]] := by decide
  simp only [whole, pair, Proper, ProperMembers, h, ProperElements, childNames, NameOk]
  have hp : [['A'], ['B']].Nodup ∧ ¬"Class".toList ∈ [['A'], ['B']] ∧ (∀ n : List Char, n ∈ [['A'], ['B']] → n ≠ [] ∧ ¬'.' ∈ n ∧ ¬'\x00' ∈ n ∧
      n.length < 2 ^ 32) ∧ True := ⟨by decide +kernel, by decide +kernel, by decide +kernel, trivial⟩
  exact ⟨by decide +kernel, by decide +kernel, by decide +kernel, hp, by decide +kernel, by decide +kernel, by decide, by decide, by decide,
    ⟨hp, hp, trivial⟩, trivial⟩

example : Fits keep (.mk ['W'] (.basic ['N'] (.num 0) (.one ['P'] (pair 0 0) (.many ['V'] [2]
  (.cons (pair 0 0) (.cons (pair 0 0) .nil)) .nil)))) whole := by
  simp [whole, pair, Fits, FitsMembers, FitsElements, keep]

example : Known (fun c => if c = ['W'] then some [['N'], ['P'], ['V']] else none) whole := by
  simp [whole, pair, Known, KnownMembers, KnownElements, memberNames]

example : wroteRead (fun c => if c = ['W'] then some [['N'], ['P'], ['V']] else none) Val.text keep .txt
    [.write ['A'] (.num 1), .createRelative "X.Y".toList] ['S'] whole [.moveToRoot, .moveRelative "X.Y".toList] ['S']
    (.mk ['W'] (.basic ['N'] (.num 0) (.one ['P'] (pair 0 0) (.many ['V'] [2] (.cons (pair 0 0) (.cons (pair 0 0) .nil)) .nil)))) [.getName] =
    some (true, some whole, [.name (some ['Y'])]) := by decide +kernel

end Verif.ConfigDb
