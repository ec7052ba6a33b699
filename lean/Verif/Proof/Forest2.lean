import Verif.Proof.Forest
/-! ## Every tree that can be built is a forest -/
set_option linter.unusedSimpArgs false
namespace Verif.Spec.ConfigDb
open Verif.ConfigDb (Name Op)

variable {V : Type}

/-- Children and paths agree. -/
structure Linked (item : List Name → Option (Item V)) : Prop where
  link : ∀ a m, (item (a ++ [m])).isSome = true ↔ m ∈ children item a
  nodup : ∀ a, (children item a).Nodup
  deep : ∃ D, ∀ q, D ≤ q.length → item q = none

theorem linked_some {item : List Name → Option (Item V)} (L : Linked item) (p q : List Name)
    (h : (item (p ++ q)).isSome = true) : (item p).isSome = true := by
  generalize hk : q.length = k
  induction k generalizing q with
  | zero =>
    rw [List.length_eq_zero_iff] at hk
    rw [hk, List.append_nil] at h
    exact h
  | succ k ih =>
    rcases List.eq_nil_or_concat q with rfl | ⟨r, m, rfl⟩
    · simp at hk
    · apply ih r ?_ (by simpa using hk)
      rw [List.concat_eq_append, ← List.append_assoc, L.link] at h
      unfold children at h
      cases hi : item (p ++ r) with
      | none => rw [hi] at h; simp at h
      | some x => rfl

theorem linked_below {item : List Name → Option (Item V)} (L : Linked item) (p : List Name)
    (h : isNode (item p) = false) (m : Name) (r : List Name) : item (p ++ m :: r) = none := by
  cases hi : item (p ++ m :: r) with
  | none => rfl
  | some x =>
    have := linked_some L (p ++ [m]) r (by rw [List.append_assoc]; simp [hi])
    rw [L.link] at this
    unfold children at this
    cases hp : item p with
    | none => rw [hp] at this; simp at this
    | some y =>
      cases y with
      | leaf v => rw [hp] at this; simp at this
      | node ch => rw [hp] at h; cases h

/-- A tree with another one put below one node. -/
def splice (item : List Name → Option (Item V)) (p : List Name) (n : Name) (ch : List Name)
    (sub : List Name → Option (Item V)) : List Name → Option (Item V) := fun q =>
  if (p ++ [n]).isPrefixOf q then sub (q.drop (p.length + 1)) else if q = p then some (.node ch) else item q

theorem splice_sub (item : List Name → Option (Item V)) (p : List Name) (n : Name) (ch : List Name)
    (sub : List Name → Option (Item V)) (r : List Name) : splice item p n ch sub (p ++ n :: r) = sub r := by
  have e : (p ++ [n]).isPrefixOf (p ++ n :: r) = true := by
    rw [List.isPrefixOf_iff_prefix]
    exact ⟨r, by simp⟩
  rw [splice, if_pos e]
  congr 1
  rw [show p ++ n :: r = (p ++ [n]) ++ r by simp, List.drop_left' (by simp)]

theorem splice_at (item : List Name → Option (Item V)) (p : List Name) (n : Name) (ch : List Name)
    (sub : List Name → Option (Item V)) : splice item p n ch sub p = some (.node ch) := by
  have e : (p ++ [n]).isPrefixOf p = false := by
    rw [Bool.eq_false_iff, ne_eq, List.isPrefixOf_iff_prefix]
    rintro ⟨r, hr⟩
    have := congrArg List.length hr
    simp at this
  rw [splice, e]
  simp

theorem splice_else (item : List Name → Option (Item V)) (p : List Name) (n : Name) (ch : List Name)
    (sub : List Name → Option (Item V)) (q : List Name) (h1 : q ≠ p) (h2 : ∀ r, q ≠ p ++ n :: r) :
    splice item p n ch sub q = item q := by
  have e : (p ++ [n]).isPrefixOf q = false := by
    rw [Bool.eq_false_iff, ne_eq, List.isPrefixOf_iff_prefix]
    rintro ⟨r, hr⟩
    exact h2 r (by rw [← hr]; simp)
  rw [splice, e]
  simp [h1]

theorem linked_splice {item : List Name → Option (Item V)} (L : Linked item) (p : List Name) (n : Name) (ch : List Name)
    (sub : List Name → Option (Item V)) (hp : (item p).isSome = true) (hn : n ∈ ch ↔ (sub []).isSome = true)
    (hm : ∀ m, m ≠ n → (m ∈ ch ↔ m ∈ children item p)) (hd : ch.Nodup) (S : Linked sub) :
    Linked (splice item p n ch sub) := by
  have kid : ∀ q x, splice item p n ch sub q = x → children (splice item p n ch sub) q =
      (match x with | some (.node c) => c | _ => []) := by
    intro q x h; unfold children; rw [h]
    cases x with
    | none => rfl
    | some y => cases y <;> rfl
  have kidS : ∀ r, children (splice item p n ch sub) (p ++ n :: r) = children sub r := by
    intro r; unfold children; rw [splice_sub]
  have kidE : ∀ a, a ≠ p → (∀ r, a ≠ p ++ n :: r) → children (splice item p n ch sub) a = children item a := by
    intro a h1 h2; unfold children; rw [splice_else _ _ _ _ _ _ h1 h2]
  have kidP : children (splice item p n ch sub) p = ch := by unfold children; rw [splice_at]
  refine ⟨fun a m => ?_, fun a => ?_, ?_⟩
  · by_cases ha : a = p
    · subst ha
      rw [kidP]
      by_cases e : m = n
      · subst e
        have := splice_sub item a m ch sub []
        rw [this, hn]
      · rw [splice_else, L.link, hm m e]
        · intro h; have := congrArg List.length h; simp at this
        · intro r h
          simp only [List.append_cancel_left_eq, List.cons.injEq] at h
          exact e h.1
    · by_cases hs : ∃ r, a = p ++ n :: r
      · obtain ⟨r, rfl⟩ := hs
        rw [kidS, List.append_assoc, List.cons_append, splice_sub, S.link]
      · have hs' : ∀ r, a ≠ p ++ n :: r := fun r h => hs ⟨r, h⟩
        rw [kidE a ha hs']
        by_cases ep : a ++ [m] = p
        · rw [ep, splice_at, ← L.link, ep, hp]
          simp
        · rw [splice_else _ _ _ _ _ _ ep, L.link]
          intro r h
          rcases List.eq_nil_or_concat r with rfl | ⟨r', x, rfl⟩
          · have := List.append_inj' h rfl
            exact ha this.1
          · rw [List.concat_eq_append, ← List.cons_append, ← List.append_assoc] at h
            exact hs' r' (List.append_inj' h rfl).1
  · by_cases ha : a = p
    · rw [ha, kidP]; exact hd
    · by_cases hs : ∃ r, a = p ++ n :: r
      · obtain ⟨r, rfl⟩ := hs
        rw [kidS]; exact S.nodup r
      · rw [kidE a ha fun r h => hs ⟨r, h⟩]; exact L.nodup a
  · obtain ⟨D, hD⟩ := L.deep
    obtain ⟨E, hE⟩ := S.deep
    refine ⟨D + E + p.length + 1, fun q hq => ?_⟩
    by_cases hs : ∃ r, q = p ++ n :: r
    · obtain ⟨r, rfl⟩ := hs
      rw [splice_sub]
      apply hE
      simp at hq
      omega
    · rw [splice_else _ _ _ _ _ _ (by rintro rfl; omega) (fun r h => hs ⟨r, h⟩)]
      apply hD
      omega

theorem linked_none : Linked (fun _ => none : List Name → Option (Item V)) :=
  ⟨fun a m => by simp [children], fun a => by simp [children], ⟨0, fun _ _ => rfl⟩⟩

theorem linked_one (x : Item V) (hx : x = .node [] ∨ ∃ v, x = .leaf v) :
    Linked (fun q => if q = [] then some x else none) := by
  have h : ∀ a, children (fun q => if q = [] then some x else none) a = [] := by
    intro a
    unfold children
    by_cases ha : a = []
    · simp only [ha, if_true]
      rcases hx with rfl | ⟨v, rfl⟩ <;> rfl
    · simp [ha]
  exact ⟨fun a m => by rw [h]; simp, fun a => by rw [h]; simp, ⟨1, fun q hq => by
    rw [if_neg]; rintro rfl; simp at hq⟩⟩

theorem linked_empty : Linked (empty : Db V).item := linked_one (.node []) (.inl rfl)

theorem isSome_of_isNode {x : Option (Item V)} (h : isNode x = true) : x.isSome = true := by
  cases x with
  | none => cases h
  | some y => rfl

theorem item_children {item : List Name → Option (Item V)} {p : List Name} (h : isNode (item p) = true) :
    item p = some (.node (children item p)) := by
  unfold children
  cases hi : item p with
  | none => rw [hi] at h; cases h
  | some y => cases y with
    | leaf v => rw [hi] at h; cases h
    | node ch => rfl

theorem setLeaf_splice (item : List Name → Option (Item V)) (p : List Name) (n : Name) (v : V) :
    setLeaf item p n v = splice item p n (if n ∈ children item p then children item p else children item p ++ [n])
      (fun q => if q = [] then some (.leaf v) else none) := by
  funext q
  by_cases hs : ∃ r, q = p ++ n :: r
  · obtain ⟨r, rfl⟩ := hs
    rw [splice_sub]
    unfold setLeaf
    have e : (p ++ [n]).isPrefixOf (p ++ n :: r) = true := by
      rw [List.isPrefixOf_iff_prefix]; exact ⟨r, by simp⟩
    cases r with
    | nil => simp
    | cons a r => rw [if_neg (by simp), if_pos e]; simp
  · have e : (p ++ [n]).isPrefixOf q = false := by
      rw [Bool.eq_false_iff, ne_eq, List.isPrefixOf_iff_prefix]
      rintro ⟨r, hr⟩
      exact hs ⟨r, by rw [← hr]; simp⟩
    have e2 : q ≠ p ++ [n] := fun h => hs ⟨[], h⟩
    unfold setLeaf splice
    simp only [e, e2, if_false, Bool.false_eq_true]

theorem remove_splice (item : List Name → Option (Item V)) (p : List Name) (n : Name) :
    remove item p n = splice item p n ((children item p).filter (· ≠ n)) (fun _ => none) := rfl

theorem addNode_splice {item : List Name → Option (Item V)} (L : Linked item) (p : List Name) (n : Name)
    (h : item (p ++ [n]) = none) :
    addNode item p n = splice item p n (children item p ++ [n]) (fun q => if q = [] then some (.node []) else none) := by
  funext q
  by_cases hs : ∃ r, q = p ++ n :: r
  · obtain ⟨r, rfl⟩ := hs
    rw [splice_sub]
    unfold addNode
    cases r with
    | nil => simp
    | cons a r =>
      rw [if_neg (by simp), if_neg (by intro h; have := congrArg List.length h; simp at this), if_neg (by simp)]
      have := linked_below L (p ++ [n]) (by rw [h]; rfl) a r
      simpa using this
  · have e : (p ++ [n]).isPrefixOf q = false := by
      rw [Bool.eq_false_iff, ne_eq, List.isPrefixOf_iff_prefix]
      rintro ⟨r, hr⟩
      exact hs ⟨r, by rw [← hr]; simp⟩
    have e2 : q ≠ p ++ [n] := fun h => hs ⟨[], h⟩
    unfold addNode splice
    simp only [e, e2, if_false, Bool.false_eq_true]

theorem linked_addNode {item : List Name → Option (Item V)} (L : Linked item) {p : List Name} {n : Name}
    (hp : isNode (item p) = true) (h : item (p ++ [n]) = none) : Linked (addNode item p n) := by
  rw [addNode_splice L p n h]
  have hn : n ∉ children item p := by rw [← L.link, h]; simp
  refine linked_splice L p n _ _ (isSome_of_isNode hp) (by simp) (fun m hm => by simp [hm]) ?_ (linked_one _ (.inl rfl))
  rw [List.nodup_append]
  refine ⟨L.nodup p, by simp, ?_⟩
  intro a ha b hb
  rw [List.mem_singleton] at hb
  rintro rfl
  exact hn (hb ▸ ha)

theorem linked_addPath {ns : List Name} : ∀ {item : List Name → Option (Item V)} {p : List Name}, Linked item →
    isNode (item p) = true → item (p ++ ns) = none → throughLeaf item p ns = false →
    Linked (addPath item p ns) ∧ isNode (addPath item p ns (p ++ ns)) = true := by
  induction ns with
  | nil =>
    intro item p L hp h0
    rw [List.append_nil] at h0
    rw [h0] at hp; cases hp
  | cons n ns ih =>
    intro item p L hp h0 ht
    rw [addPath]
    rw [show p ++ n :: ns = p ++ [n] ++ ns by simp] at h0 ⊢
    cases hi : item (p ++ [n]) with
    | none =>
      simp only [Option.isSome_none, Bool.false_eq_true, if_false]
      have L' := linked_addNode L hp hi
      have at1 : addNode item p n (p ++ [n]) = some (.node []) := by simp [addNode]
      cases ns with
      | nil =>
        rw [addPath, List.append_nil, at1]
        exact ⟨L', rfl⟩
      | cons m ms =>
        have hb : ∀ r, r ≠ [] → addNode item p n (p ++ [n] ++ r) = none := by
          intro r hr
          obtain ⟨a, r', rfl⟩ := List.exists_cons_of_ne_nil hr
          unfold addNode
          rw [if_neg (by simp), if_neg (by intro h; have := congrArg List.length h; simp at this)]
          exact linked_below L (p ++ [n]) (by rw [hi]; rfl) a r'
        refine ih L' (by rw [at1]; rfl) (hb _ (by simp)) ?_
        unfold throughLeaf
        rw [List.any_eq_false]
        intro k hk
        simp only [Bool.and_eq_true, decide_eq_true_eq, not_and]
        intro hk1
        rw [hb _ (by cases k with | zero => omega | succ k => simp)]
        simp [isLeaf]
    | some x =>
      simp only [Option.isSome_some, if_true]
      cases ns with
      | nil => rw [List.append_nil, hi] at h0; cases h0
      | cons m ms =>
        have tl : isLeaf (item (p ++ [n])) = false ∧ throughLeaf item (p ++ [n]) (m :: ms) = false := by
          unfold throughLeaf at ht ⊢
          rw [List.any_eq_false] at ht
          constructor
          · have := ht 1 (by simp)
            simpa using this
          · rw [List.any_eq_false]
            intro k hk
            have := ht (k + 1) (by simpa using hk)
            simp only [List.take_succ_cons, Nat.le_add_left, decide_true, Bool.true_and] at this
            rw [show p ++ [n] ++ (m :: ms).take k = p ++ n :: (m :: ms).take k by simp]
            cases decide (1 ≤ k) <;> simp [this]
        refine ih L ?_ h0 tl.2
        rw [hi] at tl ⊢
        cases x with
        | leaf v => cases tl.1
        | node ch => rfl

/-- What holds of a tree and of the current node. -/
structure Grown (db : Db V) : Prop where
  linked : Linked db.item
  root : isNode (db.item []) = true
  cur : isNode (db.item db.cur) = true

theorem node_take {item : List Name → Option (Item V)} (L : Linked item) {p : List Name} (h : isNode (item p) = true)
    (k : Nat) : isNode (item (p.take k)) = true := by
  by_cases hk : p.drop k = []
  · have := List.take_append_drop k p
    rw [hk, List.append_nil] at this
    rw [this]; exact h
  · cases hb : isNode (item (p.take k)) with
    | true => rfl
    | false =>
      obtain ⟨m, r, hr⟩ := List.exists_cons_of_ne_nil hk
      have := linked_below L (p.take k) hb m r
      rw [← hr, List.take_append_drop] at this
      rw [this] at h; cases h

theorem grown_move {db : Db V} (G : Grown db) (p ns : List Name) : Grown (moveTo db p ns).2 := by
  unfold moveTo
  split
  · next h => exact ⟨G.linked, G.root, h.2⟩
  · exact G

theorem addPath_root {ns : List Name} : ∀ {item : List Name → Option (Item V)} {p : List Name},
    isNode (item []) = true → isNode (addPath item p ns []) = true := by
  induction ns with
  | nil => intro item p h; exact h
  | cons n ns ih =>
    intro item p h
    rw [addPath]
    apply ih
    split
    · exact h
    · unfold addNode
      rw [if_neg (by simp)]
      split
      · rfl
      · exact h

theorem grown_create {db : Db V} (G : Grown db) (p ns : List Name) (hp : isNode (db.item p) = true)
    (ht : throughLeaf db.item p ns = false) : Grown (create db p ns).2 := by
  unfold create
  split
  · next h =>
    obtain ⟨a, b⟩ := linked_addPath G.linked hp h.2 ht
    exact ⟨a, addPath_root G.root, b⟩
  · exact G

theorem grown_step {db : Db V} (G : Grown db) (op : Op V) (ha : allowed db op = true) : Grown (step db op).2 := by
  cases op with
  | write n v =>
    rw [step]
    split
    · have hs : Linked (setLeaf db.item db.cur n v) := by
        rw [setLeaf_splice]
        refine linked_splice G.linked _ _ _ _ (isSome_of_isNode G.cur) (by simp; split <;> simp_all) ?_ ?_
          (linked_one _ (.inr ⟨v, rfl⟩))
        · intro m hm; split <;> simp [hm]
        · split
          · exact G.linked.nodup _
          · next hn =>
            rw [List.nodup_append]
            refine ⟨G.linked.nodup _, by simp, ?_⟩
            intro a ha b hb
            rw [List.mem_singleton] at hb
            rintro rfl
            exact hn (hb ▸ ha)
      have hc : isNode (setLeaf db.item db.cur n v db.cur) = true := by
        rw [setLeaf_splice, splice_at]; rfl
      refine ⟨hs, ?_, hc⟩
      simpa using node_take hs hc 0
    · exact G
  | read n => rw [step]; exact G
  | delete n =>
    rw [step]
    split
    · next h =>
      have hs : Linked (remove db.item db.cur n) := by
        rw [remove_splice]
        refine linked_splice G.linked _ _ _ _ (isSome_of_isNode G.cur) (by simp) ?_ ?_ linked_none
        · intro m hm; simp [hm]
        · exact (G.linked.nodup _).filter _
      have hc : isNode (remove db.item db.cur n db.cur) = true := by
        rw [remove_splice, splice_at]; rfl
      refine ⟨hs, ?_, hc⟩
      simpa using node_take hs hc 0
    · exact G
  | moveToRoot => exact ⟨G.linked, G.root, G.root⟩
  | moveAbsolute path => exact grown_move G _ _
  | moveRelative path => exact grown_move G _ _
  | moveToChild i =>
    rw [step]
    split
    · exact grown_move G _ _
    · exact G
  | moveToAncestor k =>
    rw [step]
    split
    · exact ⟨G.linked, G.root, node_take G.linked G.cur _⟩
    · exact G
  | createAbsolute path =>
    simp only [allowed, Bool.and_eq_true, Bool.not_eq_true'] at ha
    exact grown_create (db := { db with cur := [] }) ⟨G.linked, G.root, G.root⟩ _ _ G.root ha.2
  | createRelative path =>
    simp only [allowed, Bool.and_eq_true, Bool.not_eq_true'] at ha
    exact grown_create G _ _ G.cur ha.2
  | getName => exact G
  | getChildName i => exact G
  | getNumberOfChildren => exact G

theorem grown_run {db : Db V} (G : Grown db) (ops : List (Op V)) (ha : allAllowed db ops = true) : Grown (run db ops).2 := by
  induction ops generalizing db with
  | nil => exact G
  | cons op ops ih =>
    simp only [allAllowed, Bool.and_eq_true] at ha
    exact ih (grown_step G op ha.1) ha.2

theorem forest_list {item : List Name → Option (Item V)} (L : Linked item) (p : List Name)
    (sub : ∀ n, isNode (item (p ++ [n])) = true → ∃ F : Forest V, Below item (p ++ [n]) F ∧ F.distinct = true)
    (ns : List Name) : ns.Nodup → (∀ n ∈ ns, (item (p ++ [n])).isSome = true) →
    ∃ F : Forest V, F.names = ns ∧ F.distinct = true ∧ ∀ n ∈ ns, ∀ q, F.at n q = item (p ++ n :: q) := by
  induction ns with
  | nil => intro _ _; exact ⟨.nil, rfl, rfl, fun n hn => by cases hn⟩
  | cons n ns ih =>
    intro hd hs
    rw [List.nodup_cons] at hd
    obtain ⟨F, h1, h2, h3⟩ := ih hd.2 (fun m hm => hs m (by simp [hm]))
    have rest : ∀ m ∈ ns, n ≠ m := by rintro m hm rfl; exact hd.1 hm
    cases hi : item (p ++ [n]) with
    | none => have := hs n (by simp); rw [hi] at this; cases this
    | some x =>
      cases x with
      | leaf v =>
        refine ⟨.leaf n v F, by rw [Forest.names, h1], by simp [Forest.distinct, h1, h2, hd.1], ?_⟩
        intro m hm q
        rw [List.mem_cons] at hm
        by_cases e : n = m
        · subst e
          cases q with
          | nil => simp [Forest.at, hi]
          | cons a q =>
            have := linked_below L (p ++ [n]) (by rw [hi]; rfl) a q
            rw [List.append_assoc] at this
            simp only [List.cons_append, List.nil_append] at this
            rw [this]
            simp [Forest.at]
        · rcases hm with rfl | hm
          · exact absurd rfl e
          · rw [← h3 m hm q]
            simp [Forest.at, e]
      | node ch =>
        obtain ⟨S, s1, s2⟩ := sub n (by rw [hi]; rfl)
        refine ⟨.node n S F, by rw [Forest.names, h1], by simp [Forest.distinct, h1, h2, hd.1, s2], ?_⟩
        intro m hm q
        rw [List.mem_cons] at hm
        by_cases e : n = m
        · subst e
          have := s1 q
          rw [List.append_assoc] at this
          simp only [List.cons_append, List.nil_append] at this
          rw [this]
          cases q <;> simp [Forest.at, Forest.item]
        · rcases hm with rfl | hm
          · exact absurd rfl e
          · rw [← h3 m hm q]
            exact at_node_ne e q

theorem forest_of {item : List Name → Option (Item V)} (L : Linked item) (k : Nat) : ∀ (p : List Name),
    isNode (item p) = true → (∀ q, p.length + k ≤ q.length → item q = none) →
    ∃ F : Forest V, Below item p F ∧ F.distinct = true := by
  induction k with
  | zero =>
    intro p hp hk
    rw [hk p (by omega)] at hp; cases hp
  | succ k ih =>
    intro p hp hk
    obtain ⟨F, h1, h2, h3⟩ := forest_list L p
      (fun n hn => ih (p ++ [n]) hn (fun q hq => hk q (by simp at hq; omega)))
      (children item p) (L.nodup p) (fun n hn => (L.link p n).mpr hn)
    refine ⟨F, ?_, h2⟩
    intro q
    cases q with
    | nil => rw [List.append_nil, item_children hp, Forest.item, h1]
    | cons n q =>
      rw [Forest.item]
      by_cases hn : n ∈ children item p
      · rw [h3 n hn]
      · rw [at_none (by rw [h1]; exact hn)]
        cases hb : item (p ++ n :: q) with
        | none => rfl
        | some x =>
          have := linked_some L (p ++ [n]) q (by rw [List.append_assoc]; simp [hb])
          rw [L.link] at this
          exact absurd this hn

theorem grown_forest {db : Db V} (G : Grown db) : ∃ F : Forest V, Below db.item db.cur F ∧ F.distinct = true := by
  obtain ⟨D, hD⟩ := G.linked.deep
  exact forest_of G.linked D db.cur G.cur (fun q hq => hD q (by omega))

theorem grown_empty : Grown (empty : Db V) := ⟨linked_empty, rfl, rfl⟩

end Verif.Spec.ConfigDb
