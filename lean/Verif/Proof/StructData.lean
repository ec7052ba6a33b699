import Verif.Proof.ConfigCopy
import Verif.Spec.StructData
/-! # Structures in a configuration: the calls -/
namespace Verif.ConfigDb
open Verif.Spec.ConfigDb

variable {V : Type}

theorem element_nil (name : Name) : element name [] = name := by simp [element]

theorem indexNames_eq (name : Name) (dims : List Nat) : indexNames name dims = (tuples dims).map (element name) := by
  induction dims generalizing name with
  | nil => simp [indexNames, tuples, element]
  | cons d ds ih =>
    simp only [indexNames, tuples, List.map_flatMap]
    congr 1
    funext i
    rw [ih, List.map_map]
    apply List.map_congr_left
    intro t _
    simp [element]

/-- Nothing is lost: the nodes keep their names and their nodes. -/
structure Grow (s s' : St V) : Prop where
  root : s'.root = s.root
  next : s.next ≤ s'.next
  keep : ∀ i, i < s.next → (s'.heap i).name = (s.heap i).name ∧ ∀ j, Ent.node j ∈ (s.heap i).ents → Ent.node j ∈ (s'.heap i).ents

theorem Grow.refl (s : St V) : Grow s s := ⟨rfl, Nat.le_refl _, fun _ _ => ⟨rfl, fun _ h => h⟩⟩

theorem Grow.of_eq {s s' : St V} (h1 : s'.heap = s.heap) (h2 : s'.next = s.next) (h3 : s'.root = s.root) : Grow s s' :=
  ⟨h3, by rw [h2]; exact Nat.le_refl _, fun i _ => by rw [h1]; exact ⟨rfl, fun _ h => h⟩⟩

theorem Grow.trans {a b c : St V} (h : Grow a b) (g : Grow b c) : Grow a c := by
  refine ⟨g.root.trans h.root, Nat.le_trans h.next g.next, fun i hi => ?_⟩
  have h1 := h.keep i hi
  have h2 := g.keep i (Nat.lt_of_lt_of_le hi h.next)
  exact ⟨h2.1.trans h1.1, fun j hj => h2.2 j (h1.2 j hj)⟩

/-- A node stays at its path. -/
theorem Grow.walk {s s' : St V} {db db' : Db V} (g : Grow s s') (S : Sim s db) (S' : Sim s' db') (q : List Name) (c : Nat)
    (h : walk s.heap (.node s.root) q = some (.node c)) : walk s'.heap (.node s'.root) q = some (.node c) := by
  suffices H : ∀ k (q : List Name) c, q.length = k → ConfigDb.walk s.heap (.node s.root) q = some (.node c) →
      ConfigDb.walk s'.heap (.node s'.root) q = some (.node c) from H q.length q c rfl h
  intro k
  induction k with
  | zero =>
    intro q c hl h
    have : q = [] := List.eq_nil_of_length_eq_zero hl
    subst this
    rw [g.root]; simpa [ConfigDb.walk] using h
  | succ k ih =>
    intro q c hl h
    rcases snoc_cases q with rfl | ⟨q', n, rfl⟩
    · simp at hl
    · obtain ⟨i, h1, h2⟩ := walk_snoc h
      have h1' := ih q' i (by simpa using hl) h1
      have h3 := child_mem h2
      have hi := (S.rr.inv.ok _ _ h1).lt
      have hc := (S.rr.inv.ok _ _ h).lt
      have hm := (g.keep i hi).2 c h3.1
      have hn : entName s'.heap (.node c) = n := by rw [entName, (g.keep c hc).1]; exact h3.2
      obtain ⟨k', hk, hke⟩ := List.getElem_of_mem hm
      have hok := (S'.rr.inv.ok _ _ h1').map
      have : child s'.heap i n = some (.node c) := by
        unfold child
        have := find_of_idx hok (k := k') (e := .node c) (by rw [List.getElem?_eq_getElem hk, hke])
        rwa [hn] at this
      rw [walk_append, h1']
      simp only [Option.bind_some, ConfigDb.walk, this]

theorem fresh_search {h : Nat → Nd V} {next i : Nat} (ok : NdOk h next i) {n : Name} (hc : child h i n = none) :
    search (h i).tree n = none := by
  cases hs : search (h i).tree n with
  | none => rfl
  | some k =>
    have := (ok.map n k).mp hs
    rw [List.getElem?_map] at this
    cases he : (h i).ents[k]? with
    | none => rw [he] at this; simp at this
    | some e =>
      rw [he] at this
      simp only [Option.map_some, Option.some.injEq] at this
      unfold child at hc
      rw [List.find?_eq_none] at hc
      exact absurd (by simpa using this) (hc e (List.mem_of_getElem? he))

theorem fresh_child {s : St V} {db : Db V} (S : Sim s db) {c : Nat} (hc : walk s.heap (.node s.root) db.cur = some (.node c))
    {n : Name} (hn : db.item (db.cur ++ [n]) = none) : child s.heap c n = none := by
  rw [S.rr.item_child hc] at hn
  simpa using hn

theorem do_write {s : St V} {db : Db V} (S : Sim s db) (hr : RootName s) {n : Name} (v : V) (hn : n ≠ [])
    (hf : db.item (db.cur ++ [n]) = none) :
    ∃ s', call s (.write n v) = some (true, s') ∧ Sim s' { db with item := setLeaf db.item db.cur n v } ∧ RootName s' ∧ Grow s s' := by
  obtain ⟨s', e, S', R'⟩ := call_sim S hr (.write n v) rfl
  simp only [Spec.ConfigDb.step, hn, ne_eq, not_false_eq_true, if_true] at e S'
  refine ⟨s', e, S', R', ?_⟩
  obtain ⟨c, hc, hw⟩ := S.cur
  have ok := S.rr.inv.ok _ _ hw
  have hs := fresh_search ok (fresh_child S hw hf)
  have hl : 0 < n.length := List.length_pos_iff.mpr hn
  simp only [call, step, hl, if_true, hc, insert, entName, hs, Option.map_some, flagOf, Option.some.injEq,
    Prod.mk.injEq, true_and] at e
  subst e
  refine ⟨rfl, Nat.le_refl _, fun i _ => ?_⟩
  simp only [setNd]
  by_cases hic : i = c
  · subst hic; simp only [if_true]; exact ⟨trivial, fun j hj => List.mem_append_left _ hj⟩
  · simp only [if_neg hic]; exact ⟨trivial, fun j hj => hj⟩

theorem do_create {s : St V} {db : Db V} (S : Sim s db) (hr : RootName s) {n : Name} (hn : Good n)
    (hf : db.item (db.cur ++ [n]) = none) :
    ∃ s', call s (.createRelative n) = some (true, s') ∧ Sim s' ⟨addNode db.item db.cur n, db.cur ++ [n]⟩ ∧ RootName s' ∧ Grow s s' := by
  obtain ⟨s', e, S', R'⟩ := call_sim S hr (.createRelative n) (by simp [allowed, hn.path, hn.names, through_one])
  simp only [Spec.ConfigDb.step, create, hn.names, ne_eq, List.cons_ne_nil, not_false_eq_true, hf, and_self, if_true, addPath,
    Option.isSome_none, Bool.false_eq_true, if_false, flagOf] at e S'
  refine ⟨s', e, S', R', ?_⟩
  obtain ⟨c, hc, hw⟩ := S.cur
  have ok := S.rr.inv.ok _ _ hw
  have hcn : c ≠ s.next := Nat.ne_of_lt ok.lt
  have hs := fresh_search ok (fresh_child S hw hf)
  have hl : 0 < n.length := List.length_pos_iff.mpr hn.1
  have ht := getToken_last n hn.1 hn.2.1 hn.2.2.1 hn.2.2.2
  simp only [call, step, createNodes, hl, if_true, createLoop, ht, hc, Option.bind_some, insert, entName,
    setNd_ne _ _ hcn, setNd_same, newNd, hs, createLoop_nil, Option.map_some, flagOf, Bool.and_self, Option.some.injEq,
    Prod.mk.injEq, true_and] at e
  subst e
  refine ⟨rfl, Nat.le_succ _, fun i hi => ?_⟩
  have hin : i ≠ s.next := Nat.ne_of_lt hi
  simp only [setNd, if_neg hin]
  by_cases hic : i = c
  · subst hic; simp only [if_true]; exact ⟨trivial, fun j hj => List.mem_append_left _ hj⟩
  · simp only [if_neg hic]; exact ⟨trivial, fun j hj => hj⟩

theorem do_move {s : St V} {db : Db V} (S : Sim s db) (hr : RootName s) {n : Name} (hn : Good n)
    (hf : isNode (db.item (db.cur ++ [n])) = true) :
    ∃ s', call s (.moveRelative n) = some (true, s') ∧ Sim s' { db with cur := db.cur ++ [n] } ∧ RootName s' ∧ Grow s s' := by
  obtain ⟨s', e, S', R'⟩ := call_sim S hr (.moveRelative n) (by simp [allowed, hn.path])
  simp only [Spec.ConfigDb.step, moveTo, hn.names, ne_eq, List.cons_ne_nil, not_false_eq_true, hf, and_self, if_true, flagOf] at e S'
  refine ⟨s', e, S', R', ?_⟩
  obtain ⟨c, hc, hw⟩ := S.cur
  simp only [call, step, hc, Option.bind_some] at e
  split at e
  · simp only [Option.map_some, Option.some.injEq, Prod.mk.injEq] at e
    rw [← e.2]; exact Grow.of_eq rfl rfl rfl
  · simp [flagOf] at e

theorem do_back {s : St V} {db : Db V} (S : Sim s db) (hr : RootName s) {p : List Name} {n : Name} (hp : db.cur = p ++ [n]) :
    ∃ s', call s (.moveToAncestor 1) = some (true, s') ∧ Sim s' { db with cur := p } ∧ RootName s' ∧ Grow s s' := by
  obtain ⟨s', e, S', R'⟩ := call_sim S hr (.moveToAncestor 1) rfl
  rw [back db p n hp] at e S'
  refine ⟨s', e, S', R', ?_⟩
  obtain ⟨c, hc, hw⟩ := S.cur
  simp only [call, step, hc, Option.bind_some, ne_eq, Nat.one_ne_zero, not_false_eq_true, if_true, flagOf] at e
  split at e
  · simp only [Option.map_some, Option.some.injEq, Prod.mk.injEq] at e
    rw [← e.2]; exact Grow.of_eq rfl rfl rfl
  · simp at e

theorem value_at {s : St V} {db : Db V} (S : Sim s db) (hr : RootName s) (n : Name) :
    valueAt s (some n) = some (match db.item (db.cur ++ [n]) with
      | some (.leaf v) => some v
      | _ => none) := by
  obtain ⟨s', e, S'⟩ := sim_step S hr (.read n) rfl
  simp only [valueAt, e, Spec.ConfigDb.step, Option.map_some]
  cases h : db.item (db.cur ++ [n]) with
  | none => rfl
  | some x => cases x <;> rfl

theorem child_name_at {s : St V} {db : Db V} (S : Sim s db) (hr : RootName s) (i : Nat) :
    childNameAt s i = some (children db.item db.cur)[i]? := by
  obtain ⟨s', e, S'⟩ := sim_step S hr (.getChildName i) rfl
  simp only [childNameAt, e, Spec.ConfigDb.step, Option.map_some]

end Verif.ConfigDb
