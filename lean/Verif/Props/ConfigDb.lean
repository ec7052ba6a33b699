import Verif.Proof.ConfigDbSim

namespace Verif.ConfigDb
open Verif.Spec.ConfigDb

variable {V : Type}

/-- **C36/C37.** Every history of calls on a new database (with well formed paths, and no creation through a value)
has exactly the results that the tree of named values has: nothing crashes, and every call returns what the
specification says. -/
theorem c36_refines_tree (ops : List (Op V)) (ha : allAllowed (empty : Db V) ops = true) :
    (run (init : St V) ops).map (·.1) = some (Spec.ConfigDb.run empty ops).1 := by
  obtain ⟨s', e, _⟩ := sim_run sim_init ⟨rfl, Nat.zero_lt_one⟩ ops ha
  rw [e]; rfl

/-- The results of the calls `rest` made after the calls `ops` on a new database. -/
def after (ops rest : List (Op V)) : Option (List (Out V)) :=
  (run (init : St V) (ops ++ rest)).map fun r => r.1.drop ops.length

/-- The tree and the current path after the calls `ops`, according to the specification. -/
def tree (ops : List (Op V)) : Db V := (Spec.ConfigDb.run empty ops).2

private theorem srun_append (db : Db V) (a b : List (Op V)) :
    Spec.ConfigDb.run db (a ++ b) = ((Spec.ConfigDb.run db a).1 ++ (Spec.ConfigDb.run (Spec.ConfigDb.run db a).2 b).1,
      (Spec.ConfigDb.run (Spec.ConfigDb.run db a).2 b).2) := by
  induction a generalizing db with
  | nil => rfl
  | cons x a ih => simp [Spec.ConfigDb.run, ih]

private theorem srun_length (db : Db V) (a : List (Op V)) : (Spec.ConfigDb.run db a).1.length = a.length := by
  induction a generalizing db with
  | nil => rfl
  | cons x a ih => simp [Spec.ConfigDb.run, ih]

private theorem allowed_append (db : Db V) (a b : List (Op V)) :
    allAllowed db (a ++ b) = (allAllowed db a && allAllowed (Spec.ConfigDb.run db a).2 b) := by
  induction a generalizing db with
  | nil => rfl
  | cons x a ih => simp [Spec.ConfigDb.run, allAllowed, ih, Bool.and_assoc]

private theorem after_eq (ops rest : List (Op V)) (ha : allAllowed (empty : Db V) (ops ++ rest) = true) :
    after ops rest = some (Spec.ConfigDb.run (tree ops) rest).1 := by
  obtain ⟨s', e, _⟩ := sim_run sim_init ⟨rfl, Nat.zero_lt_one⟩ (ops ++ rest) ha
  unfold after tree
  rw [e, Option.map_some, srun_append, List.drop_left' (srun_length _ _)]

private theorem allowed_of {ops rest : List (Op V)} (ha : allAllowed (empty : Db V) ops = true)
    (hb : allAllowed (tree ops) rest = true) : allAllowed (empty : Db V) (ops ++ rest) = true := by
  rw [allowed_append, ha, Bool.true_and]; exact hb

/-- **C36.** After any history, `Read` of the name just written returns the value written. -/
theorem c36_read_after_write (ops : List (Op V)) (n : Name) (v : V) (hn : n ≠ [])
    (ha : allAllowed (empty : Db V) ops = true) :
    after ops [.write n v, .read n] = some [.flag true, .value (some v)] := by
  rw [after_eq _ _ (allowed_of ha rfl)]
  simp [Spec.ConfigDb.run, Spec.ConfigDb.step, hn, setLeaf]

/-- The call changes at most what is at and below the name `m` of the current node. -/
inductive Changes : Op V → Name → Prop where
  | write (m : Name) (v : V) : Changes (.write m v) m
  | delete (m : Name) : Changes (.delete m) m

private theorem changes_item (db : Db V) {op : Op V} {m : Name} (hop : Changes op m) (q : List Name)
    (h1 : ¬ (db.cur ++ [m]) <+: q) (h2 : q ≠ db.cur) : (Spec.ConfigDb.step db op).2.item q = db.item q := by
  have h3 : q ≠ db.cur ++ [m] := fun h => h1 (h ▸ List.prefix_refl _)
  have h4 : (db.cur ++ [m]).isPrefixOf q = false := by
    rw [Bool.eq_false_iff]; intro h; exact h1 (List.isPrefixOf_iff_prefix.mp h)
  cases hop with
  | write v =>
    simp only [Spec.ConfigDb.step]
    split
    · simp only [setLeaf, if_neg h3, h4, Bool.false_eq_true, if_false, if_neg h2]
    · rfl
  | delete =>
    simp only [Spec.ConfigDb.step]
    split
    · simp only [remove, h4, Bool.false_eq_true, if_false, if_neg h2]
    · rfl

private theorem changes_cur (db : Db V) {op : Op V} {m : Name} (hop : Changes op m) :
    (Spec.ConfigDb.step db op).2.cur = db.cur := by
  cases hop <;> (simp only [Spec.ConfigDb.step]; split <;> rfl)

private theorem changes_node (db : Db V) {op : Op V} {m : Name} (hop : Changes op m)
    (hnode : isNode (db.item db.cur) = true) : isNode ((Spec.ConfigDb.step db op).2.item db.cur) = true := by
  have h : ¬ (db.cur ++ [m]) <+: db.cur := by
    intro h; have := h.length_le; simp at this; omega
  have h4 : (db.cur ++ [m]).isPrefixOf db.cur = false := by
    rw [Bool.eq_false_iff]; intro h'; exact h (List.isPrefixOf_iff_prefix.mp h')
  have h5 : db.cur ≠ db.cur ++ [m] := by intro h'; have := congrArg List.length h'; simp at this
  cases hop with
  | write v =>
    simp only [Spec.ConfigDb.step]
    split
    · simp only [setLeaf, if_neg h5, h4, Bool.false_eq_true, if_false, if_true, isNode]
    · exact hnode
  | delete =>
    simp only [Spec.ConfigDb.step]
    split
    · simp only [remove, h4, Bool.false_eq_true, if_false, if_true, isNode]
    · exact hnode

/-- The current node is a node. -/
private theorem cur_node {ops : List (Op V)} (ha : allAllowed (empty : Db V) ops = true) :
    isNode ((tree ops).item (tree ops).cur) = true := by
  obtain ⟨s', _, S, _⟩ := sim_run sim_init ⟨rfl, Nat.zero_lt_one⟩ ops ha
  obtain ⟨c, _, hc⟩ := S.cur
  have := S.rr.view (tree ops).cur
  rw [view, show walk s'.heap (.node s'.root) (tree ops).cur = some (.node c) from hc] at this
  rw [show (tree ops).item = (Spec.ConfigDb.run empty ops).2.item from rfl, ← this]; rfl

/-- **C36.** A `Write` or `Delete` of the name `m` leaves every value that is not at or below that name as it was: going
to any node by its path and reading any name gives what it would have given before. -/
theorem c36_other_values_unchanged (ops : List (Op V)) (op : Op V) (m : Name) (path : List Char) (n : Name)
    (ha : allAllowed (empty : Db V) ops = true) (hp : pathOk path = true) (hop : Changes op m)
    (hmove : after ops [.moveAbsolute path] = some [.flag true])
    (hother : ¬ ((tree ops).cur ++ [m]) <+: (names path ++ [n])) :
    (after ops [op, .moveAbsolute path, .read n]).map (·.drop 1) = after ops [.moveAbsolute path, .read n] := by
  have hal : allowed (tree ops) op = true := by cases hop <;> rfl
  rw [after_eq _ _ (allowed_of ha (by simp [allAllowed, hal]; cases hop <;> simpa [allowed] using hp)),
    after_eq _ _ (allowed_of ha (by simpa [allAllowed, allowed] using hp))]
  rw [after_eq _ _ (allowed_of ha (by simpa [allAllowed, allowed] using hp))] at hmove
  simp only [Spec.ConfigDb.run, Option.map_some, List.drop_succ_cons, List.drop_zero, Option.some.injEq,
    List.cons.injEq, and_true] at hmove ⊢
  have h1 : ¬ ((tree ops).cur ++ [m]) <+: names path := fun h => hother (h.trans (List.prefix_append _ _))
  generalize hdb : tree ops = db at *
  have hcond : names path ≠ [] ∧ isNode (db.item (names path)) = true := by
    simp only [Spec.ConfigDb.step, moveTo, List.nil_append] at hmove
    split at hmove
    · assumption
    · simp at hmove
  have hnode : isNode ((Spec.ConfigDb.step db op).2.item (names path)) = true := by
    by_cases hc : names path = db.cur
    · rw [hc]; exact changes_node db hop (by rw [← hdb]; exact cur_node ha)
    · rw [changes_item db hop _ h1 hc]; exact hcond.2
  have hr1 : ∀ d : Db V, isNode (d.item (d.cur ++ [n])) = true → (Spec.ConfigDb.step d (.read n)).1 = .value none := by
    intro d hx
    simp only [Spec.ConfigDb.step]
    cases hi : d.item (d.cur ++ [n]) with
    | none => rfl
    | some x => cases x with
      | leaf v => rw [hi] at hx; simp [isNode] at hx
      | node ch => rfl
  have hr2 : ∀ d d' : Db V, d.item (d.cur ++ [n]) = d'.item (d'.cur ++ [n]) →
      (Spec.ConfigDb.step d (.read n)).1 = (Spec.ConfigDb.step d' (.read n)).1 := by
    intro d d' h
    simp only [Spec.ConfigDb.step, h]
  have hm : ∀ d : Db V, isNode (d.item (names path)) = true → Spec.ConfigDb.step d (.moveAbsolute path) =
      (.flag true, { d with cur := names path }) := by
    intro d hd
    simp only [Spec.ConfigDb.step, moveTo, List.nil_append]
    rw [if_pos ⟨hcond.1, hd⟩]
  rw [hm _ hnode, hm _ hcond.2]
  refine ⟨rfl, ?_⟩
  by_cases hc : names path ++ [n] = db.cur
  · have hn0 : isNode (db.item db.cur) = true := by rw [← hdb]; exact cur_node ha
    rw [hr1 _ (by simp only [hc]; exact changes_node db hop hn0), hr1 _ (by simp only [hc]; exact hn0)]
  · exact hr2 _ _ (changes_item db hop _ hother hc)

/-- **C36.** A successful `Delete` removes the entry: reading it gives nothing, it is no longer among the children, and
the other children keep their order. -/
theorem c36_delete_removes (ops : List (Op V)) (n : Name) (ha : allAllowed (empty : Db V) ops = true)
    (hd : after ops [.delete n] = some [.flag true]) :
    after ops [.delete n, .read n] = some [.flag true, .value none] ∧
    children (tree (ops ++ [.delete n])).item (tree ops).cur =
      (children (tree ops).item (tree ops).cur).filter (· ≠ n) := by
  rw [after_eq _ _ (allowed_of ha rfl)] at hd ⊢
  have hs : ((tree ops).item ((tree ops).cur ++ [n])).isSome = true := by
    simp only [Spec.ConfigDb.run, Spec.ConfigDb.step, Option.some.injEq, List.cons.injEq, and_true] at hd
    split at hd
    · assumption
    · simp at hd
  constructor
  · simp only [Spec.ConfigDb.run, Spec.ConfigDb.step, hs, if_true]
    have : ((tree ops).cur ++ [n]).isPrefixOf ((tree ops).cur ++ [n]) = true :=
      List.isPrefixOf_iff_prefix.mpr (List.prefix_refl _)
    simp [remove, this]
  · rw [tree, srun_append]
    show children (Spec.ConfigDb.run (tree ops) [.delete n]).2.item _ = _
    simp only [Spec.ConfigDb.run, Spec.ConfigDb.step, hs, if_true]
    have h4 : ((tree ops).cur ++ [n]).isPrefixOf (tree ops).cur = false := by
      rw [Bool.eq_false_iff]; intro h'
      have := (List.isPrefixOf_iff_prefix.mp h').length_le
      simp at this
      omega
    conv => lhs; unfold children
    simp only [remove, h4, Bool.false_eq_true, if_false, if_true]

/-- **C36.** `GetNumberOfChildren` and `GetChildName` enumerate the children of the current node, each once; a `Write` of
a new name adds it at the end, and a `Write` of a name already there keeps the order. -/
theorem c36_enumeration (ops : List (Op V)) (ha : allAllowed (empty : Db V) ops = true) :
    (after ops [.getNumberOfChildren] = some [.size (children (tree ops).item (tree ops).cur).length]) ∧
    (∀ i, after ops [.getChildName i] = some [.name ((children (tree ops).item (tree ops).cur)[i]?)]) ∧
    (children (tree ops).item (tree ops).cur).Nodup ∧
    (∀ n, n ∈ children (tree ops).item (tree ops).cur ↔ ((tree ops).item ((tree ops).cur ++ [n])).isSome) ∧
    (∀ n v, n ≠ [] → children (tree (ops ++ [.write n v])).item (tree ops).cur =
      if n ∈ children (tree ops).item (tree ops).cur then children (tree ops).item (tree ops).cur
      else children (tree ops).item (tree ops).cur ++ [n]) := by
  refine ⟨by rw [after_eq _ _ (allowed_of ha rfl)]; rfl, fun i => by rw [after_eq _ _ (allowed_of ha rfl)]; rfl, ?_, ?_,
    ?_⟩
  · obtain ⟨s', _, S, _⟩ := sim_run sim_init ⟨rfl, Nat.zero_lt_one⟩ ops ha
    obtain ⟨c, _, hc⟩ := S.cur
    have := S.rr.children hc
    rw [tree, this]
    exact nodup_of_mapOk (S.rr.inv.ok _ _ hc).map
  · intro n
    obtain ⟨s', _, S, _⟩ := sim_run sim_init ⟨rfl, Nat.zero_lt_one⟩ ops ha
    obtain ⟨c, _, hc⟩ := S.cur
    have h1 := S.rr.children hc
    have h2 := S.rr.item_child hc n
    rw [tree, h1, h2, Option.isSome_map]
    have h3 := child_none_iff (h := s'.heap) (i := c) (n := n)
    cases hch : child s'.heap c n with
    | none => simpa using h3.mp hch
    | some e => 
      have := child_mem hch
      simp only [Option.isSome_some, iff_true, List.mem_map]
      exact ⟨e, this⟩
  · intro n v hn
    rw [tree, srun_append]
    show children (Spec.ConfigDb.run (tree ops) [.write n v]).2.item _ = _
    simp only [Spec.ConfigDb.run, Spec.ConfigDb.step, if_pos hn]
    have h4 : ((tree ops).cur ++ [n]).isPrefixOf (tree ops).cur = false := by
      rw [Bool.eq_false_iff]; intro h'
      have := (List.isPrefixOf_iff_prefix.mp h').length_le
      simp at this
      omega
    have h5 : (tree ops).cur ≠ (tree ops).cur ++ [n] := by
      intro h'; have := congrArg List.length h'; simp at this
    conv => lhs; unfold children
    simp only [setLeaf, if_neg h5, h4, Bool.false_eq_true, if_false, if_true]

/-- **C37.** `MoveToAncestor(k)` after a `MoveRelative` of `k` levels returns to the node where it started: every later
call gives what it would have given without the two moves. -/
theorem c37_ancestor_returns (ops : List (Op V)) (path : List Char) (rest : List (Op V))
    (ha : allAllowed (empty : Db V) (ops ++ rest) = true) (hp : pathOk path = true)
    (hmove : after ops [.moveRelative path] = some [.flag true]) :
    (after ops (.moveRelative path :: .moveToAncestor (names path).length :: rest)) =
      (after ops rest).map fun r => .flag true :: .flag true :: r := by
  have ha' := ha
  rw [allowed_append, Bool.and_eq_true] at ha'
  rw [after_eq _ _ (allowed_of ha'.1 (by simpa [allAllowed, allowed] using hp))] at hmove
  have hcond : names path ≠ [] ∧ isNode ((tree ops).item ((tree ops).cur ++ names path)) = true := by
    simp only [Spec.ConfigDb.run, Spec.ConfigDb.step, moveTo, Option.some.injEq, List.cons.injEq, and_true] at hmove
    split at hmove
    · assumption
    · simp at hmove
  have hl : 1 ≤ (names path).length := by
    cases hc : names path with
    | nil => exact absurd hc hcond.1
    | cons a b => simp
  have h1 : Spec.ConfigDb.step (tree ops) (.moveRelative path) =
      (.flag true, { tree ops with cur := (tree ops).cur ++ names path }) := by
    simp only [Spec.ConfigDb.step, moveTo]
    rw [if_pos hcond]
  have h2 : Spec.ConfigDb.step { tree ops with cur := (tree ops).cur ++ names path }
      (.moveToAncestor (names path).length : Op V) = (.flag true, tree ops) := by
    simp only [Spec.ConfigDb.step, List.length_append]
    rw [if_pos ⟨hl, by omega⟩, Nat.add_sub_cancel, List.take_left' rfl]
  rw [after_eq _ _ ha, after_eq _ _ (allowed_of ha'.1 (by
    simp only [allAllowed, h1, h2, Bool.and_eq_true]
    exact ⟨hp, rfl, ha'.2⟩))]
  simp only [Spec.ConfigDb.run, h1, h2, Option.map_some]

/-- The calls that move the current node, and the creation relative to it. -/
inductive Moves : Op V → Prop where
  | absolute (path : List Char) : Moves (.moveAbsolute path)
  | relative (path : List Char) : Moves (.moveRelative path)
  | child (i : Nat) : Moves (.moveToChild i)
  | ancestor (k : Nat) : Moves (.moveToAncestor k)
  | create (path : List Char) : Moves (.createRelative path)

/-- **C37.** A failed `Move` or `CreateRelative` changes neither the current node nor the tree: every later call gives
what it would have given without it. -/
theorem c37_failure_changes_nothing (ops : List (Op V)) (op : Op V) (rest : List (Op V)) (hop : Moves op)
    (ha : allAllowed (empty : Db V) (ops ++ rest) = true) (ha1 : allAllowed (empty : Db V) (ops ++ [op]) = true)
    (hfail : after ops [op] = some [.flag false]) :
    after ops (op :: rest) = (after ops rest).map fun r => .flag false :: r := by
  have ha' := ha
  have ha1' := ha1
  rw [allowed_append, Bool.and_eq_true] at ha' ha1'
  rw [after_eq _ _ ha1] at hfail
  simp only [Spec.ConfigDb.run, Option.some.injEq, List.cons.injEq, and_true] at hfail
  have hmv : ∀ p ns, (moveTo (tree ops) p ns).1 = .flag false → (moveTo (tree ops) p ns).2 = tree ops := by
    intro p ns h
    unfold moveTo at h ⊢
    split at h
    · simp at h
    · rename_i hc; rw [if_neg hc]
  have hst : (Spec.ConfigDb.step (tree ops) op).2 = tree ops := by
    cases hop with
    | absolute path => exact hmv _ _ hfail
    | relative path => exact hmv _ _ hfail
    | child i =>
      simp only [Spec.ConfigDb.step] at hfail ⊢
      split at hfail
      · exact hmv _ _ hfail
      · rfl
    | ancestor k =>
      simp only [Spec.ConfigDb.step] at hfail ⊢
      split at hfail
      · simp at hfail
      · rename_i hc; rw [if_neg hc]
    | create path =>
      simp only [Spec.ConfigDb.step, create] at hfail ⊢
      split at hfail
      · simp at hfail
      · rename_i hc; rw [if_neg hc]
  rw [after_eq _ _ ha, after_eq _ _ (allowed_of ha'.1 (by
    simp only [allAllowed, hst, Bool.and_eq_true]
    have := ha1'.2
    simp only [allAllowed, Bool.and_true] at this
    exact ⟨this, ha'.2⟩))]
  simp only [Spec.ConfigDb.run, hst, hfail, Option.map_some]

/-- A tree with a value `v` at the root and, below the node `a`, the value `w` of the node `b`. -/
private def sample : List (Op Nat) :=
  [.write ['v'] 1, .createAbsolute ['a', '.', 'b'], .write ['w'] 2]

/-- The hypotheses of the theorems above are met by a tree of several levels. -/
example : allAllowed (empty : Db Nat) sample = true ∧ (tree sample).cur = [['a'], ['b']] ∧
    after sample [.read ['w'], .moveToAncestor 1, .getChildName 0, .moveRelative ['x'], .moveAbsolute ['a'], .getName,
      .moveToAncestor 1, .read ['v'], .getNumberOfChildren, .delete ['v'], .getChildName 0] =
      some [.value (some 2), .flag true, .name (some ['b']), .flag false, .flag true, .name (some ['a']), .flag true,
        .value (some 1), .size 2, .flag true, .name (some ['a'])] := by decide +kernel

/-- **C37, disagreement.** A failed `CreateAbsolute` moves the current node to the root: the value just written is not
found any more. -/
theorem c37_failed_create_absolute_moves :
    after sample [.createAbsolute ['a'], .read ['w']] = some [.flag false, .value none] ∧
    after sample [.read ['w']] = some [.value (some 2)] := by decide +kernel

/-- **C37, disagreement.** Creating a node below a name that holds a value uses a null pointer. -/
theorem c37_create_through_value_crashes (v : Nat) :
    run (init : St Nat) [.write ['v'] v, .createRelative ['v', '.', 'x']] = none := by rfl

/-- **C37, disagreement.** Extra dots in front of a path are skipped by `CreateAbsolute` but not by `MoveAbsolute`, which
goes on at the wrong character: the node just created with the path `..bc.c` is at `bc.c`, and moving to `..bc.c`
fails. -/
theorem c37_leading_dots :
    after ([] : List (Op Nat)) [.createAbsolute "..bc.c".toList, .moveAbsolute "bc.c".toList, .moveAbsolute "..bc.c".toList] =
      some [.flag true, .flag true, .flag false] := by decide +kernel

end Verif.ConfigDb
