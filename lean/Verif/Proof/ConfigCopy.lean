import Verif.Proof.ConfigDbSim
import Verif.Model.ConfigCopy
import Verif.Spec.ConfigCopy

namespace Verif.ConfigDb
open Verif.Spec.ConfigDb

variable {V : Type}

/-- A name that can be one of the names of a path. -/
def Good (n : Name) : Prop := n ≠ [] ∧ '.' ∉ n ∧ '\x00' ∉ n ∧ n.length < 2 ^ 32

theorem splitDots_parts (path : List Char) : ∀ n ∈ splitDots path, '.' ∉ n ∧ (∀ c ∈ n, c ∈ path) ∧ n.length ≤ path.length := by
  induction path with
  | nil => intro n hn; simp [splitDots] at hn; subst hn; simp
  | cons c cs ih =>
    intro n hn
    unfold splitDots at hn
    split at hn
    · rename_i hc
      rcases List.mem_cons.1 hn with h | h
      · subst h; simp
      · obtain ⟨a, b, d⟩ := ih n h
        exact ⟨a, fun x hx => List.mem_cons_of_mem _ (b x hx), by simp; omega⟩
    · rename_i hc
      cases hs : splitDots cs with
      | nil => exact absurd hs (splitDots_ne cs)
      | cons m r =>
        rw [hs] at hn ih
        rcases List.mem_cons.1 hn with h | h
        · obtain ⟨a, b, d⟩ := ih m (by simp)
          subst h
          refine ⟨?_, ?_, by simp; omega⟩
          · intro h; rcases List.mem_cons.1 h with h | h
            · exact hc h.symm
            · exact a h
          · intro x hx; rcases List.mem_cons.1 hx with h | h
            · simp [h]
            · exact List.mem_cons_of_mem _ (b x h)
        · obtain ⟨a, b, d⟩ := ih n (List.mem_cons_of_mem _ h)
          exact ⟨a, fun x hx => List.mem_cons_of_mem _ (b x hx), by simp; omega⟩

theorem good_names {path : List Char} (hp : pathOk path = true) : ∀ n ∈ names path, Good n := by
  intro n hn
  unfold names at hn
  split at hn
  · simp at hn
  · rename_i hne
    simp only [pathOk, Bool.and_eq_true, decide_eq_true_eq, Bool.not_eq_true', Bool.or_eq_true, beq_iff_eq,
      List.all_eq_true, hne, false_or] at hp
    obtain ⟨a, b, c⟩ := splitDots_parts path n hn
    refine ⟨by simpa using hp.2 n hn, a, fun h => ?_, by omega⟩
    have := hp.1.2
    rw [List.contains_eq_mem] at this
    simp [b _ h] at this

theorem splitDots_plain {n : Name} (hd : '.' ∉ n) : splitDots n = [n] := by
  induction n with
  | nil => rfl
  | cons c cs ih =>
    unfold splitDots
    rw [if_neg (fun h => hd (by simp [h])), ih (fun h => hd (List.mem_cons_of_mem _ h))]

theorem Good.names {n : Name} (h : Good n) : names n = [n] := by
  unfold Spec.ConfigDb.names
  rw [if_neg h.1, splitDots_plain h.2.1]

theorem Good.path {n : Name} (h : Good n) : pathOk n = true := by
  simp [pathOk, splitDots_plain h.2.1, h.1, h.2.2.1, h.2.2.2]

theorem through_one (item : List Name → Option (Item V)) (p : List Name) (n : Name) : throughLeaf item p [n] = false := by
  simp [throughLeaf, List.range_succ]

/-- The names in a tree are names of a path, or names of values, and the tree has a depth. -/
structure Tame (item : List Name → Option (Item V)) : Prop where
  leaf : ∀ p n, item (p ++ [n]) ≠ none → n ≠ []
  node : ∀ p n, isNode (item (p ++ [n])) = true → Good n
  deep : ∃ D, ∀ q : List Name, item q ≠ none → q.length ≤ D

/-- The last name of a path is good. -/
def GoodEnd (p : List Name) : Prop := ∀ p' n, p = p' ++ [n] → Good n

theorem Tame.goodEnd {item : List Name → Option (Item V)} (T : Tame item) {p : List Name} (h : isNode (item p) = true) :
    GoodEnd p := by
  intro p' n e; subst e; exact T.node p' n h

theorem snoc_inj {α : Type} {a b : List α} {x y : α} (h : a ++ [x] = b ++ [y]) : a = b ∧ x = y := by
  simpa using h

theorem tame_setLeaf {item : List Name → Option (Item V)} (T : Tame item) {p : List Name} (hp : GoodEnd p) {n : Name}
    (hn : n ≠ []) (v : V) : Tame (setLeaf item p n v) := by
  refine ⟨?_, ?_, ?_⟩
  · intro q m h
    unfold setLeaf at h
    split at h
    · rename_i e; rw [(snoc_inj e).2]; exact hn
    · split at h
      · exact absurd rfl h
      · split at h
        · rename_i e; exact (hp q m e.symm).1
        · exact T.leaf q m h
  · intro q m h
    unfold setLeaf at h
    split at h
    · simp [isNode] at h
    · split at h
      · simp [isNode] at h
      · split at h
        · rename_i e; exact hp q m e.symm
        · exact T.node q m h
  · obtain ⟨D, hD⟩ := T.deep
    refine ⟨D + p.length + 1, fun q h => ?_⟩
    unfold setLeaf at h
    split at h
    · rename_i e; subst e; simp
    · split at h
      · exact absurd rfl h
      · split at h
        · rename_i e; subst e; omega
        · have := hD q h; omega

theorem tame_remove {item : List Name → Option (Item V)} (T : Tame item) {p : List Name} (hp : GoodEnd p) {n : Name} :
    Tame (remove item p n) := by
  refine ⟨?_, ?_, ?_⟩
  · intro q m h
    unfold remove at h
    split at h
    · exact absurd rfl h
    · split at h
      · rename_i e; exact (hp q m e.symm).1
      · exact T.leaf q m h
  · intro q m h
    unfold remove at h
    split at h
    · simp [isNode] at h
    · split at h
      · rename_i e; exact hp q m e.symm
      · exact T.node q m h
  · obtain ⟨D, hD⟩ := T.deep
    refine ⟨D + p.length + 1, fun q h => ?_⟩
    unfold remove at h
    split at h
    · exact absurd rfl h
    · split at h
      · rename_i e; subst e; omega
      · have := hD q h; omega

theorem tame_addNode {item : List Name → Option (Item V)} (T : Tame item) {p : List Name} (hp : GoodEnd p) {n : Name}
    (hn : Good n) : Tame (addNode item p n) := by
  refine ⟨?_, ?_, ?_⟩
  · intro q m h
    unfold addNode at h
    split at h
    · rename_i e; rw [(snoc_inj e).2]; exact hn.1
    · split at h
      · rename_i e; exact (hp q m e.symm).1
      · exact T.leaf q m h
  · intro q m h
    unfold addNode at h
    split at h
    · rename_i e; rw [(snoc_inj e).2]; exact hn
    · split at h
      · rename_i e; exact hp q m e.symm
      · exact T.node q m h
  · obtain ⟨D, hD⟩ := T.deep
    refine ⟨D + p.length + 1, fun q h => ?_⟩
    unfold addNode at h
    split at h
    · rename_i e; subst e; simp
    · split at h
      · rename_i e; subst e; omega
      · have := hD q h; omega

theorem tame_addPath {item : List Name → Option (Item V)} (T : Tame item) {p : List Name} (hp : GoodEnd p) {ns : List Name}
    (hns : ∀ n ∈ ns, Good n) : Tame (addPath item p ns) := by
  induction ns generalizing item p with
  | nil => exact T
  | cons n ns ih =>
    unfold addPath
    refine ih ?_ ?_ (fun m hm => hns m (List.mem_cons_of_mem _ hm))
    · split
      · exact T
      · exact tame_addNode T hp (hns n (by simp))
    · intro p' m e; rw [← (snoc_inj e).2]; exact hns n (by simp)

theorem tame_empty : Tame (empty : Db V).item := by
  refine ⟨?_, ?_, 0, ?_⟩
  · intro p n h; simp [empty] at h
  · intro p n h; simp [empty, isNode] at h
  · intro q h
    by_cases hq : q = []
    · simp [hq]
    · simp [empty, hq] at h

theorem tame_step {db : Db V} (T : Tame db.item) (hc : isNode (db.item db.cur) = true) (op : Op V)
    (ha : allowed db op = true) : Tame (Spec.ConfigDb.step db op).2.item := by
  have hg := T.goodEnd hc
  have hm : ∀ p ns, (moveTo db p ns).2.item = db.item := by
    intro p ns; unfold moveTo; split <;> rfl
  cases op with
  | write n v =>
    simp only [Spec.ConfigDb.step]
    split
    · rename_i hn; exact tame_setLeaf T hg hn v
    · exact T
  | read n => exact T
  | delete n =>
    simp only [Spec.ConfigDb.step]
    split
    · exact tame_remove T hg
    · exact T
  | moveToRoot => exact T
  | moveAbsolute path => simp only [Spec.ConfigDb.step, hm]; exact T
  | moveRelative path => simp only [Spec.ConfigDb.step, hm]; exact T
  | moveToChild i =>
    simp only [Spec.ConfigDb.step]
    split
    · rw [hm]; exact T
    · exact T
  | moveToAncestor k =>
    simp only [Spec.ConfigDb.step]
    split <;> exact T
  | createAbsolute path =>
    simp only [allowed, Bool.and_eq_true] at ha
    simp only [Spec.ConfigDb.step, create]
    split
    · exact tame_addPath T (by intro p' n e; simp at e) (good_names ha.1)
    · exact T
  | createRelative path =>
    simp only [allowed, Bool.and_eq_true] at ha
    simp only [Spec.ConfigDb.step, create]
    split
    · exact tame_addPath T hg (good_names ha.1)
    · exact T
  | getName => exact T
  | getChildName i => exact T
  | getNumberOfChildren => exact T

theorem Sim.isNode {s : St V} {db : Db V} (S : Sim s db) : isNode (db.item db.cur) = true := by
  obtain ⟨c, _, hc⟩ := S.cur
  rw [← S.rr.view, view, hc]; rfl

theorem tame_run {s : St V} {db : Db V} (S : Sim s db) (hr : RootName s) (T : Tame db.item) (ops : List (Op V))
    (ha : allAllowed db ops = true) : Tame (Spec.ConfigDb.run db ops).2.item := by
  induction ops generalizing s db with
  | nil => exact T
  | cons op ops ih =>
    simp only [allAllowed, Bool.and_eq_true] at ha
    obtain ⟨s1, e1, S1⟩ := sim_step S hr op ha.1
    exact ih S1 (step_root hr e1) (tame_step T S.isNode op ha.1) ha.2

theorem call_sim {s : St V} {db : Db V} (S : Sim s db) (hr : RootName s) (op : Op V) (ha : allowed db op = true) :
    ∃ s', call s op = some (flagOf (Spec.ConfigDb.step db op).1, s') ∧ Sim s' (Spec.ConfigDb.step db op).2 ∧ RootName s' := by
  obtain ⟨s', e1, S1⟩ := sim_step S hr op ha
  exact ⟨s', by rw [call, e1]; rfl, S1, step_root hr e1⟩

theorem overlay_at (d s : Db V) (L : List Name) : (overlay d s L).item d.cur =
    some (.node (children d.item d.cur ++ L.filter fun n => n ∉ children d.item d.cur)) := by
  simp only [overlay]
  rw [if_pos (by rw [List.isPrefixOf_iff_prefix]; exact List.prefix_refl _)]
  simp

theorem overlay_below (d s : Db V) (L : List Name) (n : Name) (r : List Name) : (overlay d s L).item (d.cur ++ n :: r) =
    if n ∈ L then s.item (s.cur ++ n :: r) else d.item (d.cur ++ n :: r) := by
  simp only [overlay]
  rw [if_pos (by rw [List.isPrefixOf_iff_prefix]; exact List.prefix_append _ _)]
  simp

theorem overlay_out (d s : Db V) (L : List Name) {q : List Name} (hq : ¬ d.cur <+: q) :
    (overlay d s L).item q = d.item q := by
  simp only [overlay]
  rw [if_neg (by rw [List.isPrefixOf_iff_prefix]; exact hq)]

theorem path_cases (p q : List Name) : (¬ p <+: q) ∨ q = p ∨ ∃ n r, q = p ++ n :: r := by
  by_cases h : p <+: q
  · obtain ⟨r, rfl⟩ := h
    cases r with
    | nil => right; left; simp
    | cons n r => right; right; exact ⟨n, r, rfl⟩
  · left; exact h

theorem db_eq {a b : Db V} (h1 : a.cur = b.cur) (h2 : ∀ q, a.item q = b.item q) : a = b := by
  cases a; cases b
  simp only at h1 h2
  subst h1
  congr
  funext q; exact h2 q

theorem overlay_nil (d s : Db V) (h : isNode (d.item d.cur) = true) : overlay d s [] = d := by
  refine db_eq rfl fun q => ?_
  rcases path_cases d.cur q with hq | rfl | ⟨n, r, rfl⟩
  · exact overlay_out d s [] hq
  · rw [overlay_at]
    unfold children
    cases hi : d.item d.cur with
    | none => rw [hi] at h; simp [isNode] at h
    | some x =>
      cases x with
      | leaf v => rw [hi] at h; simp [isNode] at h
      | node ch => simp
  · rw [overlay_below]; simp

theorem filter_snoc {n : Name} {L ch : List Name} (hn : n ∉ L) :
    (L.filter fun m => m ∉ ch ++ [n]) = L.filter fun m => m ∉ ch := by
  apply List.filter_congr
  intro m hm
  have : m ≠ n := fun h => hn (h ▸ hm)
  simp [this]

/-- A value more. -/
theorem overlay_leaf {d s : Db V} {n : Name} {L : List Name} {v : V} (hn : n ∉ L) (hv : s.item (s.cur ++ [n]) = some (.leaf v))
    (hb : ∀ m r, s.item (s.cur ++ n :: m :: r) = none) :
    overlay { d with item := setLeaf d.item d.cur n v } s L = overlay d s (n :: L) := by
  have hch : children (setLeaf d.item d.cur n v) d.cur =
      if n ∈ children d.item d.cur then children d.item d.cur else children d.item d.cur ++ [n] := by
    conv => lhs; unfold children
    simp only [setLeaf]
    rw [if_neg (by simp), if_neg (by
      rw [List.isPrefixOf_iff_prefix]; intro h; have := h.length_le; simp at this; omega), if_pos trivial]
  refine db_eq rfl fun q => ?_
  rcases path_cases d.cur q with hq | rfl | ⟨m, r, rfl⟩
  · rw [overlay_out _ _ _ (by exact hq), overlay_out _ _ _ hq]
    simp only [setLeaf]
    rw [if_neg (by rintro rfl; exact hq (List.prefix_append _ _)), if_neg (by
      rw [List.isPrefixOf_iff_prefix]; intro h; exact hq ((List.prefix_append _ _).trans h)),
      if_neg (by rintro rfl; exact hq (List.prefix_refl _))]
  · rw [overlay_at d s (n :: L)]
    have := overlay_at { d with item := setLeaf d.item d.cur n v } s L
    simp only at this
    rw [this, hch]
    by_cases h : n ∈ children d.item d.cur
    · simp [h]
    · rw [if_neg h, filter_snoc hn]; simp [h]
  · rw [overlay_below d s (n :: L)]
    have := overlay_below { d with item := setLeaf d.item d.cur n v } s L m r
    simp only at this
    rw [this]
    by_cases hm : m = n
    · subst hm
      rw [if_neg hn, if_pos (by simp)]
      simp only [setLeaf]
      cases r with
      | nil => rw [if_pos rfl, hv]
      | cons x r =>
        rw [if_neg (by simp), if_pos (by
          rw [List.isPrefixOf_iff_prefix]; exact ⟨x :: r, by simp⟩), hb]
    · have : (m ∈ n :: L) ↔ m ∈ L := by simp [hm]
      simp only [this]
      split
      · rfl
      · simp only [setLeaf]
        rw [if_neg (by simp [hm]), if_neg (by
          rw [List.isPrefixOf_iff_prefix]
          rintro ⟨t, ht⟩
          simp at ht
          exact hm ht.1.symm), if_neg (by simp)]

/-- A node more. -/
theorem overlay_node {d s : Db V} {n : Name} {L ch : List Name} (hn : n ∉ L) (hs : s.item (s.cur ++ [n]) = some (.node ch))
    (hb : ∀ m r, m ∉ ch → s.item (s.cur ++ n :: m :: r) = none) (hd : ∀ r, d.item (d.cur ++ n :: r) = none)
    (hnd : n ∉ children d.item d.cur) :
    overlay { item := (overlay ⟨addNode d.item d.cur n, d.cur ++ [n]⟩ { s with cur := s.cur ++ [n] } ch).item, cur := d.cur } s L
      = overlay d s (n :: L) := by
  have hA : ∀ q, q ≠ d.cur ++ [n] → q ≠ d.cur → addNode d.item d.cur n q = d.item q := by
    intro q h1 h2; unfold addNode; rw [if_neg h1, if_neg h2]
  have hAc : addNode d.item d.cur n d.cur = some (.node (children d.item d.cur ++ [n])) := by
    unfold addNode; rw [if_neg (by simp), if_pos rfl]
  generalize hE : (overlay ⟨addNode d.item d.cur n, d.cur ++ [n]⟩ { s with cur := s.cur ++ [n] } ch) = e
  have eout : ∀ q, ¬ (d.cur ++ [n]) <+: q → e.item q = addNode d.item d.cur n q := by
    intro q hq; rw [← hE]; exact overlay_out _ _ _ hq
  have eat : e.item (d.cur ++ [n]) = some (.node ch) := by
    have := overlay_at ⟨addNode d.item d.cur n, d.cur ++ [n]⟩ { s with cur := s.cur ++ [n] } ch
    rw [hE] at this
    simp only at this
    rw [this]
    have : children (addNode d.item d.cur n) (d.cur ++ [n]) = [] := by
      simp [children, addNode]
    rw [this]; simp
  have ebelow : ∀ m r, e.item (d.cur ++ n :: m :: r) = s.item (s.cur ++ n :: m :: r) := by
    intro m r
    have := overlay_below ⟨addNode d.item d.cur n, d.cur ++ [n]⟩ { s with cur := s.cur ++ [n] } ch m r
    rw [hE] at this
    simp only [List.append_assoc, List.singleton_append] at this
    rw [this]
    split
    · rfl
    · rename_i h
      rw [hA _ (by simp) (by simp), hd, hb m r h]
  have npre : ¬ (d.cur ++ [n]) <+: d.cur := by
    intro h; have := h.length_le; simp at this; omega
  have hch : children e.item d.cur = children d.item d.cur ++ [n] := by
    conv => lhs; unfold children
    rw [eout _ npre, hAc]
  refine db_eq rfl fun q => ?_
  rcases path_cases d.cur q with hq | rfl | ⟨m, r, rfl⟩
  · rw [overlay_out _ _ _ (by exact hq), overlay_out _ _ _ hq]
    simp only
    rw [eout _ (fun h => hq ((List.prefix_append _ _).trans h)), hA _ (by rintro rfl; exact hq (List.prefix_append _ _))
      (by rintro rfl; exact hq (List.prefix_refl _))]
  · rw [overlay_at d s (n :: L)]
    have := overlay_at { item := e.item, cur := d.cur } s L
    simp only at this
    rw [this, hch, filter_snoc hn]
    simp [hnd]
  · rw [overlay_below d s (n :: L)]
    have := overlay_below { item := e.item, cur := d.cur } s L m r
    simp only at this
    rw [this]
    by_cases hm : m = n
    · subst hm
      rw [if_neg hn, if_pos (by simp)]
      cases r with
      | nil => rw [eat, hs]
      | cons x r => rw [ebelow]
    · have : (m ∈ n :: L) ↔ m ∈ L := by simp [hm]
      simp only [this]
      split
      · rfl
      · rw [eout _ (by rintro ⟨t, ht⟩; simp at ht; exact hm ht.1.symm), hA _ (by simp [hm]) (by simp)]

theorem RR.none_below {h : Nat → Nd V} {next root : Nat} {item} (R : RR h next root item) {q : List Name}
    (hq : item q = none) (r : List Name) : item (q ++ r) = none := item_none_below R hq r

theorem RR.leaf_below {h : Nat → Nd V} {next root : Nat} {item} (R : RR h next root item) {q : List Name} {v : V}
    (hq : item q = some (.leaf v)) (m : Name) (r : List Name) : item (q ++ m :: r) = none := by
  rw [← R.view, ConfigDb.view] at hq ⊢
  rw [walk_append]
  cases hw : walk h (.node root) q with
  | none => rfl
  | some e =>
    rw [hw] at hq
    cases e with
    | leaf a b => rfl
    | node j => simp [content] at hq

theorem RR.child_none {h : Nat → Nd V} {next root : Nat} {item} (R : RR h next root item) {p : List Name} {ch : List Name}
    (hp : item p = some (.node ch)) {m : Name} (hm : m ∉ ch) : item (p ++ [m]) = none := by
  have hv := R.view p
  rw [hp, ConfigDb.view] at hv
  cases hw : walk h (.node root) p with
  | none => rw [hw] at hv; simp at hv
  | some e =>
    cases e with
    | leaf a b => rw [hw] at hv; simp [content] at hv
    | node c =>
      rw [hw] at hv
      simp only [Option.map_some, content, Option.some.injEq, Item.node.injEq] at hv
      rw [R.item_child hw, (child_none_iff m).2 (by rw [hv]; exact hm)]; rfl

/-- One round of the loop for a value. -/
theorem round_leaf {s d : St V} {c i : Nat} {n : Name} {v : V} {d1 : St V} (fuel : Nat) (hc : s.cur = some c)
    (hg : get s.heap c i = some (.leaf n v)) (h1 : call d (.write n v) = some (true, d1)) :
    copyFrom (fuel + 1) s d i = copyFrom fuel s d1 (i + 1) := by
  simp only [copyFrom, hc, Option.bind_some, hg, h1, if_true]

/-- One round of the loop for a node. -/
theorem round_node {s d : St V} {c i j : Nat} {d1 d2 d3 s1 s2 s3 : St V} {b1 b2 b3 b4 b5 : Bool} (fuel : Nat) (hc : s.cur = some c)
    (hg : get s.heap c i = some (.node j)) (h1 : call d (.createRelative (s.heap j).name) = some (b1, d1))
    (h2 : call s (.moveRelative (s.heap j).name) = some (b2, s1))
    (h3 : (if b1 && b2 then copyFrom fuel s1 d1 0 else some (false, s1, d1)) = some (b3, s2, d2))
    (h4 : call s2 (.moveToAncestor 1) = some (b4, s3)) (h5 : call d2 (.moveToAncestor 1) = some (b5, d3)) :
    copyFrom (fuel + 1) s d i = if b3 && b4 && b5 then copyFrom fuel s3 d3 (i + 1) else some (false, s3, d3) := by
  simp only [copyFrom, hc, Option.bind_some, hg, h1, h2, h3, h4, h5]

/-- Going to a child and back. -/
theorem back (db : Db V) (p : List Name) (n : Name) (hp : db.cur = p ++ [n]) :
    Spec.ConfigDb.step db (.moveToAncestor 1) = (.flag true, { db with cur := p }) := by
  simp only [Spec.ConfigDb.step]
  rw [if_pos (by rw [hp]; simp), hp]
  simp

/-- `pre` children copied, none of which clashes. -/
theorem copy_prefix (D : Nat) : ∀ (s d : St V) (sdb ddb : Db V) (i : Nat) (pre post : List Name), Sim s sdb → RootName s →
    Sim d ddb → RootName d → Tame sdb.item → (∀ q, sdb.item q ≠ none → q.length ≤ sdb.cur.length + D) →
    (children sdb.item sdb.cur).drop i = pre ++ post → (∀ n ∈ pre, ¬ Clash ddb sdb n) →
    ∃ N s' d', (∀ fuel, N ≤ fuel → copyFrom (fuel + pre.length) s d i = copyFrom fuel s' d' (i + pre.length)) ∧ Sim s' sdb ∧ RootName s' ∧
      Sim d' (overlay ddb sdb pre) ∧ RootName d' := by
  induction D using Nat.strongRecOn with
  | _ D IH =>
  intro s d sdb ddb i pre
  induction pre generalizing s d ddb i with
  | nil =>
    intro post S hr Sd hrd T hD hL hcl
    exact ⟨0, s, d, fun _ _ => rfl, S, hr, by rw [overlay_nil _ _ Sd.isNode]; exact Sd, hrd⟩
  | cons n pre ih =>
    intro post S hr Sd hrd T hD hL hcl
    obtain ⟨c, hcur, hc⟩ := S.cur
    have ok := S.rr.inv.ok _ _ hc
    have hch := S.rr.children hc
    have hnd : (children sdb.item sdb.cur).Nodup := by rw [hch]; exact nodup_of_mapOk ok.map
    have hnd2 : (n :: pre ++ post).Nodup := by rw [← hL]; exact hnd.sublist (List.drop_sublist _ _)
    have hnpre : n ∉ pre := by
      rw [List.cons_append, List.nodup_cons] at hnd2
      intro h; exact hnd2.1 (by simp [h])
    have hi : (children sdb.item sdb.cur)[i]? = some n := by
      have := congrArg (·[0]?) hL
      simpa [List.getElem?_drop] using this
    have hL' : (children sdb.item sdb.cur).drop (i + 1) = pre ++ post := by
      have := congrArg (List.drop 1) hL
      simpa [List.drop_drop, Nat.add_comm] using this
    rw [hch, List.getElem?_map] at hi
    cases hx : (s.heap c).ents[i]? with
    | none => rw [hx] at hi; simp at hi
    | some e =>
    rw [hx] at hi
    simp only [Option.map_some, Option.some.injEq] at hi
    have hce : child s.heap c n = some e := by rw [← hi]; exact find_of_idx ok.map hx
    have hitem : sdb.item (sdb.cur ++ [n]) = some (content s.heap e) := by rw [S.rr.item_child hc, hce]; rfl
    cases e with
    | leaf m v =>
      simp only [entName] at hi
      subst hi
      have hv : sdb.item (sdb.cur ++ [m]) = some (.leaf v) := hitem
      have hm : m ≠ [] := T.leaf _ _ (by rw [hv]; simp)
      obtain ⟨d1, e1, S1, hr1⟩ := call_sim Sd hrd (.write m v) rfl
      simp only [Spec.ConfigDb.step, if_pos hm, flagOf] at e1 S1
      obtain ⟨N, s', d', hN, a, b, c', d''⟩ := ih s d1 _ (i + 1) post S hr S1 hr1 T hD hL' (by
        intro x hx hcx
        apply hcl x (List.mem_cons_of_mem _ hx)
        refine ⟨hcx.1, fun h0 => hcx.2 ?_⟩
        have hxm : x ≠ m := fun h => hnpre (h ▸ hx)
        simp only [setLeaf]
        rw [if_neg (by simpa using hxm), if_neg (by
          rw [List.isPrefixOf_iff_prefix]; rintro ⟨t, ht⟩; simp at ht; exact hxm ht.1.symm), if_neg (by simp)]
        exact h0)
      refine ⟨N, s', d', fun fuel hf => ?_, a, b, ?_, d''⟩
      · rw [List.length_cons, show fuel + (pre.length + 1) = (fuel + pre.length) + 1 by omega,
          round_leaf (fuel + pre.length) hcur hx e1, hN fuel hf]
        congr 1; omega
      · rw [← overlay_leaf hnpre hv (fun x r => by
          have := S.rr.leaf_below hv x r
          simpa using this)]
        exact c'
    | node j =>
      simp only [entName] at hi
      have hv : sdb.item (sdb.cur ++ [n]) = some (.node ((s.heap j).ents.map (entName s.heap))) := hitem
      generalize hchj : (s.heap j).ents.map (entName s.heap) = ch at hv
      have hg : Good n := T.node _ _ (by rw [hv]; rfl)
      have hfree : ddb.item (ddb.cur ++ [n]) = none := by
        have := hcl n (by simp)
        simp only [Clash, hv, isNode, true_and, ne_eq, Decidable.not_not] at this
        exact this
      have hfreeb : ∀ r, ddb.item (ddb.cur ++ n :: r) = none := fun r => by
        have := Sd.rr.none_below hfree r
        simpa using this
      have hnotch : n ∉ children ddb.item ddb.cur := by
        obtain ⟨cd, _, hcd⟩ := Sd.cur
        rw [Sd.rr.children hcd]
        have := Sd.rr.item_child hcd n
        rw [hfree] at this
        have h0 : child d.heap cd n = none := by
          cases h : child d.heap cd n with
          | none => rfl
          | some _ => rw [h] at this; simp at this
        exact (child_none_iff n).1 h0
      -- the calls
      obtain ⟨d1, e1, S1, hr1⟩ := call_sim Sd hrd (.createRelative n) (by
        simp only [allowed, hg.path, hg.names, through_one, Bool.not_false, Bool.and_true])
      have est : Spec.ConfigDb.step ddb (.createRelative n) =
          (.flag true, ⟨addNode ddb.item ddb.cur n, ddb.cur ++ [n]⟩) := by
        simp only [Spec.ConfigDb.step, create, hg.names]
        rw [if_pos ⟨by simp, hfree⟩]
        simp [addPath, hfree]
      rw [est] at e1 S1
      obtain ⟨s1, e2, S2, hr2⟩ := call_sim S hr (.moveRelative n) hg.path
      have est2 : Spec.ConfigDb.step sdb (.moveRelative n) = (.flag true, { sdb with cur := sdb.cur ++ [n] }) := by
        simp only [Spec.ConfigDb.step, moveTo, hg.names]
        rw [if_pos ⟨by simp, by rw [hv]; rfl⟩]
      rw [est2] at e2 S2
      have hDpos : 0 < D := by
        have := hD (sdb.cur ++ [n]) (by rw [hv]; simp)
        simp at this; exact this
      obtain ⟨N1, s2, d2, hN1, S3, hr3, S4, hr4⟩ := IH (D - 1) (by omega) s1 d1 _ _ 0 ch [] S2 hr2 S1 hr1 T (by
          intro q hq
          have := hD q hq
          simp only [List.length_append, List.length_singleton]; omega) (by
          simp [children, hv]) (by
          intro x _ hcx
          apply hcx.2
          have := hfreeb [x]
          simp only [addNode]
          rw [if_neg (by simp), if_neg (by simp)]
          simpa using this)
      obtain ⟨s3, e4, S5, hr5⟩ := call_sim S3 hr3 (.moveToAncestor 1) rfl
      rw [back _ sdb.cur n rfl] at e4 S5
      obtain ⟨d3, e5, S6, hr6⟩ := call_sim S4 hr4 (.moveToAncestor 1) rfl
      rw [back _ ddb.cur n rfl] at e5 S6
      simp only [flagOf] at e1 e2 e4 e5
      -- the inner copy ends
      have hend : ∀ fuel, N1 ≤ fuel → copyFrom (fuel + 1 + ch.length) s1 d1 0 = some (true, s2, d2) := by
        intro fuel hf
        rw [hN1 (fuel + 1) (by omega)]
        obtain ⟨c3, hcur3, hc3⟩ := S3.cur
        have hlen : (s2.heap c3).ents.length = ch.length := by
          have := S3.rr.children hc3
          simp only [children, hv] at this
          rw [this]; simp
        simp only [copyFrom, hcur3, Option.bind_some, get]
        rw [List.getElem?_eq_none (by omega)]
      obtain ⟨N, s', d', hN, a, b, c', d''⟩ := ih s3 d3 _ (i + 1) post S5 hr5 S6 hr6 T hD hL' (by
        intro x hx hcx
        apply hcl x (List.mem_cons_of_mem _ hx)
        refine ⟨hcx.1, fun h0 => hcx.2 ?_⟩
        have hxn : x ≠ n := fun h => hnpre (h ▸ hx)
        simp only
        rw [overlay_out _ _ _ (by rintro ⟨t, ht⟩; simp at ht; exact hxn ht.1.symm)]
        simp only [addNode]
        rw [if_neg (by simpa using hxn), if_neg (by simp)]
        exact h0)
      refine ⟨N + N1 + 1 + ch.length, s', d', fun fuel hf => ?_, a, b, ?_, d''⟩
      · rw [List.length_cons, show fuel + (pre.length + 1) = (fuel + pre.length) + 1 by omega]
        rw [round_node (fuel + pre.length) hcur hx (by rw [hi]; exact e1) (by rw [hi]; exact e2) (b3 := true) (s2 := s2) (d2 := d2) (by
          simp only [Bool.and_self, if_true]
          have := hend (fuel + pre.length - 1 - ch.length) (by omega)
          rw [show fuel + pre.length - 1 - ch.length + 1 + ch.length = fuel + pre.length by omega] at this
          exact this) e4 e5]
        simp only [Bool.and_self, if_true]
        rw [hN fuel (by omega)]
        congr 1; omega
      · rw [← overlay_node hnpre hv (fun x r hxch => by
          have := S.rr.none_below (S.rr.child_none hv hxch) r
          simpa using this) hfreeb hnotch]
        exact c'

end Verif.ConfigDb
