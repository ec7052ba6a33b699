import Verif.Proof.ConfigDb

namespace Verif.ConfigDb
open Verif.Spec.ConfigDb

variable {V : Type}

theorem item_none_below {h : Nat → Nd V} {next root : Nat} {item} (R : RR h next root item) {q : List Name}
    (hq : item q = none) (r : List Name) : item (q ++ r) = none := by
  rw [← R.view, view] at hq ⊢
  rw [walk_append]
  cases hw : walk h (.node root) q with
  | none => rfl
  | some e => rw [hw] at hq; simp at hq

theorem addNode_below {item : List Name → Option (Item V)} {p : List Name} {n : Name} {r : List Name} (hr : r ≠ []) :
    addNode item p n (p ++ [n] ++ r) = item (p ++ [n] ++ r) := by
  unfold addNode
  rw [if_neg (by intro h; apply hr; simpa using h), if_neg (by intro h; have := congrArg List.length h; simp at this)]

theorem getToken_nil : Verif.Token.getToken ['.'] none [] = ⟨false, [], '\x00', []⟩ := by decide

theorem createLoop_nil (fuel : Nat) (h : Nat → Nd V) (next : Nat) (cur : Option Nat) (b : Bool) :
    createLoop fuel h next cur [] b = some (h, next, cur, true, b) := by
  cases fuel with
  | zero => rfl
  | succ fuel => simp [createLoop, getToken_nil]

theorem through_tail {item : List Name → Option (Item V)} {p : List Name} {n : Name} {ns : List Name}
    (ht : throughLeaf item p (n :: ns) = false) (hns : ns ≠ []) :
    isLeaf (item (p ++ [n])) = false ∧ throughLeaf item (p ++ [n]) ns = false := by
  unfold throughLeaf at ht ⊢
  rw [List.any_eq_false] at ht
  constructor
  · have := ht 1 (by
      cases ns with
      | nil => exact absurd rfl hns
      | cons a b => simp)
    simpa using this
  · rw [List.any_eq_false]
    intro k hk
    have := ht (k + 1) (by simpa using hk)
    simp only [List.take_succ_cons, Nat.le_add_left, decide_true, Bool.true_and] at this
    rw [show p ++ [n] ++ ns.take k = p ++ n :: ns.take k by simp]
    cases decide (1 ≤ k) <;> simp [this]

theorem create_loop {root : Nat} (fuel : Nat) (path : List Char) (h : Nat → Nd V) (next : Nat)
    (item : List Name → Option (Item V)) (p : List Name) (c : Nat) (created : Bool)
    (hf : path.length < fuel) (hl : path.length < 2 ^ 32) (hz : '\x00' ∉ path)
    (hns : ∀ n ∈ splitDots path, n ≠ []) (R : RR h next root item)
    (hc : walk h (.node root) p = some (.node c)) (ht : throughLeaf item p (splitDots path) = false) :
    (item (p ++ splitDots path) = none → ∃ h' next' c', createLoop fuel h next (some c) path created =
        some (h', next', some c', true, true) ∧ RR h' next' root (addPath item p (splitDots path)) ∧
        walk h' (.node root) (p ++ splitDots path) = some (.node c')) ∧
    (item (p ++ splitDots path) ≠ none → ∃ h' next' c' b, createLoop fuel h next (some c) path created =
        some (h', next', some c', false, b) ∧ RR h' next' root item ∧
        ∀ q, walk h' (.node root) q = walk h (.node root) q) := by
  induction fuel generalizing path h next item p c created with
  | zero => omega
  | succ fuel ih =>
    obtain ⟨n, r, h1, h2, h3⟩ := split_cases path
    have hn : n ≠ [] := hns n (by rw [h1]; simp)
    have ok := R.inv.ok p c hc
    have hcn : c ≠ next := Nat.ne_of_lt ok.lt
    rcases h3 with ⟨a, b⟩ | ⟨rest, a, b⟩
    · -- last name
      subst a
      have hg := getToken_last n hn h2 (by rw [← b]; exact hz) (by rw [← b]; exact hl)
      rw [← b] at hg
      have hp : path = n := b
      rw [h1]
      simp only [createLoop, hg, if_true, Option.bind_some]
      constructor
      · intro hnone
        obtain ⟨h', g1, g2, g3⟩ := add_spec R hc path (by rw [hp]; exact hnone)
        rw [g1]
        simp only [if_true, createLoop_nil]
        refine ⟨_, _, _, rfl, ?_, ?_⟩
        · simp only [addPath, hnone, Option.isSome_none, Bool.false_eq_true, if_false]
          rw [← hp]; exact g2
        · rw [← hp]; exact g3
      · intro hsome
        have hag := agree_below (h' := setNd h next (newNd path none)) R (next + 1) (by omega)
          (fun k hk => setNd_ne _ _ (Nat.ne_of_lt hk))
        have hs : ∃ k, search (h c).tree path = some k := by
          have := R.item_child hc path
          rw [hp] at this
          cases hch : child h c n with
          | none => rw [hch] at this; exact absurd this hsome
          | some e =>
            have hcm := child_mem hch
            obtain ⟨k, hk, hke⟩ := List.getElem_of_mem hcm.1
            refine ⟨k, (ok.map _ k).mpr ?_⟩
            rw [List.getElem?_map, List.getElem?_eq_getElem hk, hke, Option.map_some, hcm.2, hp]
        obtain ⟨k, hk⟩ := hs
        have hins : insert (setNd h next (newNd path none)) c (.node next) true =
            (false, setNd h next (newNd path none)) := by
          unfold insert
          simp only [entName, setNd_same, setNd_ne _ _ hcn, newNd, hk, if_true]
        rw [hins]
        exact ⟨_, _, _, _, rfl, hag.1, hag.2⟩
    · -- a name and more
      have hlen : path.length = n.length + 1 + rest.length := by rw [b]; simp; omega
      have hg := getToken_dot n rest hn h2 (by intro h; apply hz; rw [b]; simp [h]) (by omega)
      rw [← b] at hg
      have hrne : r ≠ [] := by rw [a]; exact splitDots_ne _
      have hne : ¬ ('.' = '\x00') := by decide
      rw [h1] at ht
      obtain ⟨t1, t2⟩ := through_tail ht hrne
      have ihr := fun h next item c created R hc ht => ih rest h next item (p ++ [n]) c created (by omega) (by omega)
        (by intro h; apply hz; rw [b]; simp [h]) (by intro x hx; exact hns x (by rw [h1, a]; simp [hx])) R hc ht
      rw [h1, a]
      simp only [createLoop, hg, if_true, Option.bind_some, if_neg hne, findLeaf_eq ok n]
      have hassoc : p ++ n :: splitDots rest = p ++ [n] ++ splitDots rest := by simp
      rw [hassoc]
      have hic := R.item_child hc n
      cases hch : child h c n with
      | some e =>
        rw [hch] at hic
        cases e with
        | leaf m v => rw [hic] at t1; simp [content, isLeaf] at t1
        | node j =>
          have hwj : walk h (.node root) (p ++ [n]) = some (.node j) := by
            rw [walk_append, hc]; simp [walk, hch]
          have := ihr h next item j created R hwj (by rw [← a]; exact t2)
          simp only [asNode, addPath, hic, Option.map_some, Option.isSome_some, if_true]
          exact this
      | none =>
        rw [hch, Option.map_none] at hic
        have hall : item (p ++ [n] ++ splitDots rest) = none := item_none_below R hic _
        refine ⟨fun _ => ?_, fun h => absurd hall h⟩
        obtain ⟨h', g1, g2, g3⟩ := add_spec R hc n hic
        simp only [g1, if_true]
        have t3 : throughLeaf (addNode item p n) (p ++ [n]) (splitDots rest) = false := by
          unfold throughLeaf
          rw [List.any_eq_false]
          intro k hk
          by_cases hk1 : 1 ≤ k
          · have hne : (splitDots rest).take k ≠ [] := by
              intro h
              have := congrArg List.length h
              rw [List.length_take] at this
              have hk' := List.mem_range.mp hk
              simp only [List.length_nil] at this
              omega
            rw [addNode_below hne, item_none_below R hic]
            simp [isLeaf]
          · simp [hk1]
        have := (ihr _ (next + 1) (addNode item p n) next true g2 g3 t3).1 (by
          rw [addNode_below (splitDots_ne _)]; exact hall)
        simp only [addPath, hic, Option.isSome_none, Bool.false_eq_true, if_false]
        exact this

theorem create_spec {s : St V} {item} {p : List Name} {c : Nat} (R : RR s.heap s.next s.root item)
    (hc : walk s.heap (.node s.root) p = some (.node c)) (hcur : s.cur = some c) (path : List Char)
    (hp : pathOk path = true) (ht : throughLeaf item p (names path) = false) :
    ∃ s', createNodes s path = some (decide (names path ≠ [] ∧ item (p ++ names path) = none), s') ∧
      s'.root = s.root ∧
      (if names path ≠ [] ∧ item (p ++ names path) = none then
        RR s'.heap s'.next s'.root (addPath item p (names path)) ∧
        ∃ c', s'.cur = some c' ∧ walk s'.heap (.node s'.root) (p ++ names path) = some (.node c')
      else RR s'.heap s'.next s'.root item ∧ s'.cur = s.cur ∧
        ∀ q, walk s'.heap (.node s'.root) q = walk s.heap (.node s.root) q) := by
  unfold createNodes
  cases path with
  | nil => exact ⟨s, by simp [names], rfl, by simp [names, R]⟩
  | cons x xs =>
    have hnm : names (x :: xs) = splitDots (x :: xs) := by simp [names]
    have hne := splitDots_ne (x :: xs)
    simp only [pathOk, Bool.and_eq_true, decide_eq_true_eq, Bool.not_eq_true', Bool.or_eq_true, beq_iff_eq,
      reduceCtorEq, false_or, List.all_eq_true] at hp
    have hz : '\x00' ∉ x :: xs := by
      intro h; have := hp.1.2; simp at this; exact absurd h (by simp [this])
    rw [hnm] at ht ⊢
    have L := create_loop ((x :: xs).length + 1) (x :: xs) s.heap s.next item p c false (by omega) hp.1.1 hz
      (fun n hn => by simpa using hp.2 n hn) R hc ht
    rw [if_pos (by simp), hcur]
    by_cases hi : item (p ++ splitDots (x :: xs)) = none
    · obtain ⟨h', next', c', e1, e2, e3⟩ := L.1 hi
      rw [e1]
      refine ⟨⟨h', next', s.root, some c'⟩, by rw [decide_eq_true ⟨hne, hi⟩]; rfl, rfl, ?_⟩
      rw [if_pos ⟨hne, hi⟩]
      exact ⟨e2, c', rfl, e3⟩
    · obtain ⟨h', next', c', b, e1, e2, e3⟩ := L.2 hi
      rw [e1]
      refine ⟨⟨h', next', s.root, s.cur⟩, by rw [decide_eq_false (fun h => hi h.2), hcur]; rfl, rfl, ?_⟩
      rw [if_neg (fun h => hi h.2)]
      exact ⟨e2, hcur, e3⟩

theorem ancestor_spec {h : Nat → Nd V} {next root : Nat} (inv : Inv h next root) (g k i : Nat) (p : List Name)
    (c : Nat) (hg : g = i + k) (hc : walk h (.node root) p = some (.node c)) :
    if k ≤ p.length then ∃ c', ancestorLoop h root g k i c = some c' ∧
        walk h (.node root) (p.take (p.length - k)) = some (.node c')
      else ancestorLoop h root g k i c = none := by
  induction k generalizing i p c with
  | zero => rw [if_pos (by omega)]; exact ⟨c, rfl, by simpa using hc⟩
  | succ k ih =>
    rcases snoc_cases p with h0 | ⟨p', n, rfl⟩
    · subst h0
      simp only [walk, Option.some.injEq, Ent.node.injEq] at hc
      subst hc
      rw [if_neg (by simp)]
      simp [ancestorLoop, inv.rootp]
    · obtain ⟨f, hf, hch⟩ := walk_snoc hc
      have hpar := (inv.ok p' f hf).parent c (child_mem hch).1
      simp only [ancestorLoop, hpar, List.length_append, List.length_singleton]
      have htake : (p' ++ [n]).take (p'.length + 1 - (k + 1)) = p'.take (p'.length - k) := by
        rw [List.take_append_of_le_length (by omega)]
        congr 1; omega
      rw [htake]
      have hrec := ih (i + 1) p' f (by omega) hf
      by_cases hr : f = root
      · have hp' : p' = [] := uniq inv p' [] root (by rw [hf, hr]) rfl
        subst hp'
        rw [if_pos hr]
        by_cases hk : k = 0
        · subst hk
          rw [if_pos (by omega), if_pos (show g = i + 1 by omega)]
          simpa using hrec
        · rw [if_neg (by simp; omega), if_neg (by omega)]
      · rw [if_neg hr]
        by_cases hk : k ≤ p'.length
        · rw [if_pos hk] at hrec
          rw [if_pos (by omega)]; exact hrec
        · rw [if_neg hk] at hrec
          rw [if_neg (by omega)]; exact hrec

/-- The state represents the tree and the current path. -/
structure Sim (s : St V) (db : Db V) : Prop where
  rr : RR s.heap s.next s.root db.item
  cur : ∃ c, s.cur = some c ∧ walk s.heap (.node s.root) db.cur = some (.node c)

theorem move_spec {s : St V} {db : Db V} (S : Sim s db) (p : List Name) (c : Nat) (path : List Char)
    (hc : walk s.heap (.node s.root) p = some (.node c)) (hp : pathOk path = true) :
    ∃ s', (match asNode (find s.heap (path.length + 1) c path) with
      | some i => some (Out.flag (V := V) true, { s with cur := some i })
      | none => some (.flag false, s)) = some ((moveTo db p (names path)).1, s') ∧
      Sim s' (moveTo db p (names path)).2 := by
  cases path with
  | nil =>
    simp only [find, getToken_nil, Bool.false_eq_true, if_false, asNode, moveTo, names, if_true]
    exact ⟨s, rfl, S⟩
  | cons x xs =>
    simp only [pathOk, Bool.and_eq_true, decide_eq_true_eq, Bool.not_eq_true', Bool.or_eq_true, beq_iff_eq,
      reduceCtorEq, false_or, List.all_eq_true] at hp
    have hz : '\x00' ∉ x :: xs := by
      intro h; have := hp.1.2; simp at this; exact absurd h (by simp [this])
    have hnm : names (x :: xs) = splitDots (x :: xs) := by simp [names]
    rw [find_eq S.rr.inv ((x :: xs).length + 1) (x :: xs) (by omega) hp.1.1 hz (fun n hn => by simpa using hp.2 n hn) p c hc,
      hnm]
    have hw : walk s.heap (.node s.root) (p ++ splitDots (x :: xs)) = walk s.heap (.node c) (splitDots (x :: xs)) := by
      rw [walk_append, hc]; rfl
    have hv := S.rr.view (p ++ splitDots (x :: xs))
    rw [view, hw] at hv
    unfold moveTo
    cases hwc : walk s.heap (.node c) (splitDots (x :: xs)) with
    | none =>
      rw [hwc] at hv
      rw [← hv, if_neg (fun h => by simpa [isNode] using h.2)]
      exact ⟨s, rfl, S⟩
    | some e =>
      rw [hwc] at hv
      rw [← hv]
      cases e with
      | leaf m v =>
        rw [if_neg (fun h => by simpa [isNode, content] using h.2)]
        exact ⟨s, rfl, S⟩
      | node j =>
        rw [if_pos ⟨splitDots_ne _, rfl⟩]
        exact ⟨_, rfl, S.rr, j, rfl, by rw [hw, hwc]⟩

theorem last_name {h : Nat → Nd V} {root : Nat} {p : List Name} {c : Nat} (hp : p ≠ [])
    (hc : walk h (.node root) p = some (.node c)) : (h c).name = p.getLast?.getD [] := by
  rcases snoc_cases p with h0 | ⟨p', n, rfl⟩
  · exact absurd h0 hp
  · obtain ⟨f, _, hch⟩ := walk_snoc hc
    have := (child_mem hch).2
    simpa [entName] using this

theorem insert_name {h : Nat → Nd V} {c : Nat} {e : Ent V} {b : Bool} (k : Nat) :
    ((insert h c e b).2 k).name = (h k).name := by
  unfold insert
  cases b <;> cases hs : search (h c).tree (entName h e) <;> by_cases hk : k = c <;> simp [setNd, hk, hs]

/-- The root has no name. -/
def RootName (s : St V) : Prop := (s.heap s.root).name = [] ∧ s.root < s.next

theorem createLoop_root (root : Nat) (fuel : Nat) (h : Nat → Nd V) (next : Nat) (cur : Option Nat)
    (path : List Char) (b : Bool) (hn : (h root).name = []) (hr : root < next) {r}
    (he : createLoop fuel h next cur path b = some r) : (r.1 root).name = [] ∧ root < r.2.1 := by
  induction fuel generalizing h next cur path b with
  | zero => simp [createLoop] at he; subst he; exact ⟨hn, hr⟩
  | succ fuel ih =>
    simp only [createLoop] at he
    split at he
    · rename_i hok
      cases cur with
      | none => simp at he
      | some c =>
        simp only [Option.bind_some] at he
        have hnew : (if (insert (setNd h next (newNd (Verif.Token.getToken ['.'] none path).out none)) c (.node next) true).1 = true
            then createLoop fuel (setNd (insert (setNd h next (newNd (Verif.Token.getToken ['.'] none path).out none)) c (.node next) true).2 next
              { (insert (setNd h next (newNd (Verif.Token.getToken ['.'] none path).out none)) c (.node next) true).2 next with parent := some c })
              (next + 1) (some next) (Verif.Token.getToken ['.'] none path).rest true
            else some ((insert (setNd h next (newNd (Verif.Token.getToken ['.'] none path).out none)) c (.node next) true).2,
              next + 1, some c, false, b)) = some r → (r.1 root).name = [] ∧ root < r.2.1 := by
          intro he
          have h1 : ((insert (setNd h next (newNd (Verif.Token.getToken ['.'] none path).out none)) c (.node next) true).2 root).name = [] := by
            rw [insert_name, setNd_ne _ _ (Nat.ne_of_lt hr)]; exact hn
          split at he
          · refine ih _ _ _ _ _ ?_ ?_ he
            · rw [setNd_ne _ _ (Nat.ne_of_lt hr)]; exact h1
            · omega
          · simp only [Option.some.injEq] at he; subst he; exact ⟨h1, by show root < next + 1; omega⟩
        split at he
        · exact hnew he
        · split at he
          · exact ih _ _ _ _ _ hn hr he
          · exact hnew he
    · simp at he; subst he; exact ⟨hn, hr⟩

theorem step_root {s : St V} {op : Op V} {r} (hs : RootName s) (he : step s op = some r) : RootName r.2 := by
  have hcreate : ∀ (s : St V) path {q}, RootName s → createNodes s path = some q → RootName q.2 := by
    intro s path q hs hq
    unfold createNodes at hq
    split at hq
    · cases hl : createLoop (path.length + 1) s.heap s.next s.cur path false with
      | none => rw [hl] at hq; simp at hq
      | some x =>
        rw [hl] at hq
        simp only [Option.bind_some, Option.some.injEq] at hq
        subst hq
        exact createLoop_root s.root _ _ _ _ _ _ hs.1 hs.2 hl
    · simp at hq; subst hq; exact hs
  have hdel : ∀ (fuel c : Nat) (e : Ent V) (k : Nat), ((delete fuel s.heap c e).2 k).name = (s.heap k).name := by
    intro fuel c e k
    unfold delete
    cases hs : search (s.heap c).tree (entName s.heap e) with
    | none => simp only [hs]
    | some i =>
      simp only [hs]
      split
      · split
        · cases e with
          | leaf _ _ => simp only; by_cases hk : k = c <;> simp [setNd, hk]
          | node j =>
            simp only
            rw [(purge_spec _ _ _).2.1]
            by_cases hk : k = j <;> by_cases hk2 : k = c <;> by_cases hk3 : j = c <;> simp_all [setNd]
        · simp only; by_cases hk : k = c <;> simp [setNd, hk]
      · rfl
  cases op with
  | write n v =>
    simp only [step] at he
    split at he
    · cases hc : s.cur with
      | none => rw [hc] at he; simp at he; subst he; exact hs
      | some c =>
        rw [hc] at he; simp only [Option.some.injEq] at he; subst he
        exact ⟨by simp only [insert_name]; exact hs.1, hs.2⟩
    · simp at he; subst he; exact hs
  | read n =>
    simp only [step] at he
    split at he
    · simp at he; subst he; exact hs
    · split at he <;> (simp at he; subst he; exact hs)
  | delete n =>
    simp only [step] at he
    cases hc : s.cur with
    | none => rw [hc] at he; simp at he
    | some c =>
      rw [hc, Option.bind_some] at he
      split at he
      · simp only [Option.some.injEq] at he; subst he
        exact ⟨by simp only [hdel]; exact hs.1, hs.2⟩
      · simp at he; subst he; exact hs
  | moveToRoot => simp only [step, Option.some.injEq] at he; subst he; exact hs
  | moveAbsolute path => simp only [step] at he; split at he <;> (simp only [Option.some.injEq] at he; subst he; exact hs)
  | moveRelative path =>
    simp only [step] at he
    cases hc : s.cur with
    | none => rw [hc] at he; simp at he
    | some c => rw [hc, Option.bind_some] at he; split at he <;> (simp only [Option.some.injEq] at he; subst he; exact hs)
  | moveToChild i =>
    simp only [step] at he
    cases hc : s.cur with
    | none => rw [hc] at he; simp at he
    | some c => rw [hc, Option.bind_some] at he; split at he <;> (simp only [Option.some.injEq] at he; subst he; exact hs)
  | moveToAncestor k =>
    simp only [step] at he
    split at he
    · cases hc : s.cur with
      | none => rw [hc] at he; simp at he
      | some c => rw [hc, Option.bind_some] at he; split at he <;> (simp only [Option.some.injEq] at he; subst he; exact hs)
    · simp at he; subst he; exact hs
  | createAbsolute path =>
    simp only [step] at he
    cases hq : createNodes { s with cur := some s.root } path with
    | none => rw [hq] at he; simp at he
    | some q =>
      rw [hq] at he; simp only [Option.map_some, Option.some.injEq] at he; subst he
      exact hcreate { s with cur := some s.root } path hs hq
  | createRelative path =>
    simp only [step] at he
    cases hq : createNodes s path with
    | none => rw [hq] at he; simp at he
    | some q =>
      rw [hq] at he; simp only [Option.map_some, Option.some.injEq] at he; subst he
      exact hcreate s path hs hq
  | getName => simp only [step, Option.some.injEq] at he; subst he; exact hs
  | getChildName i =>
    simp only [step] at he
    cases hc : s.cur with
    | none => rw [hc] at he; simp at he
    | some c => rw [hc] at he; simp at he; subst he; exact hs
  | getNumberOfChildren => simp only [step, Option.some.injEq] at he; subst he; exact hs

theorem sim_step {s : St V} {db : Db V} (S : Sim s db) (hr : RootName s) (op : Op V)
    (ha : allowed db op = true) :
    ∃ s', step s op = some ((Spec.ConfigDb.step db op).1, s') ∧ Sim s' (Spec.ConfigDb.step db op).2 := by
  obtain ⟨c, hcur, hc⟩ := S.cur
  have ok := S.rr.inv.ok _ _ hc
  have hch := S.rr.children hc
  have hic := S.rr.item_child hc
  cases op with
  | write n v =>
    simp only [step, Spec.ConfigDb.step, hcur]
    by_cases hn : n = []
    · subst hn
      simp only [List.length_nil, gt_iff_lt, Nat.lt_irrefl, if_false, ne_eq, not_true_eq_false]
      exact ⟨s, rfl, S⟩
    · have hl : n.length > 0 := by cases n with | nil => exact absurd rfl hn | cons _ _ => simp
      simp only [if_pos hl, if_pos hn]
      obtain ⟨h', e1, e2, e3⟩ := write_spec S.rr hc n v
      rw [e1]
      exact ⟨_, rfl, e2, c, rfl, e3⟩
  | read n =>
    simp only [step, Spec.ConfigDb.step, hcur, findLeaf_eq ok n, hic n]
    cases child s.heap c n with
    | none => exact ⟨s, rfl, S⟩
    | some e => cases e <;> exact ⟨s, rfl, S⟩
  | delete n =>
    simp only [step, Spec.ConfigDb.step, hcur, Option.bind_some, findLeaf_eq ok n, hic n]
    cases hx : child s.heap c n with
    | none => exact ⟨s, rfl, S⟩
    | some e =>
      simp only [Option.map_some, Option.isSome_some, if_true]
      obtain ⟨h', e1, e2, e3⟩ := delete_spec S.rr hc n e hx s.next
      rw [e1]
      exact ⟨_, rfl, e2, c, rfl, e3⟩
  | moveToRoot => exact ⟨_, rfl, S.rr, s.root, rfl, rfl⟩
  | moveAbsolute path => exact move_spec S [] s.root path rfl ha
  | moveRelative path =>
    simp only [step, Spec.ConfigDb.step, hcur, Option.bind_some]
    exact move_spec S db.cur c path hc ha
  | moveToChild i =>
    simp only [step, Spec.ConfigDb.step, hcur, Option.bind_some, get, hch, List.getElem?_map]
    cases hx : (s.heap c).ents[i]? with
    | none => exact ⟨s, rfl, S⟩
    | some e =>
      simp only [Option.map_some]
      have hce : child s.heap c (entName s.heap e) = some e := find_of_idx ok.map hx
      unfold moveTo
      rw [hic, hce]
      cases e with
      | leaf m v => exact ⟨s, rfl, by simpa [isNode, content] using S⟩
      | node j =>
        rw [if_pos ⟨by simp, rfl⟩]
        exact ⟨_, rfl, S.rr, j, rfl, by simp only; rw [walk_append, hc]; simp [walk, hce]⟩
  | moveToAncestor k =>
    simp only [step, Spec.ConfigDb.step, hcur, Option.bind_some]
    by_cases hk : k = 0
    · subst hk
      simp only [ne_eq, not_true_eq_false, if_false]
      rw [if_neg (by omega)]
      exact ⟨s, rfl, S⟩
    · rw [if_pos hk]
      have := ancestor_spec S.rr.inv k k 0 db.cur c (by omega) hc
      by_cases hl : k ≤ db.cur.length
      · rw [if_pos hl] at this
        obtain ⟨c', e1, e2⟩ := this
        rw [e1, if_pos ⟨by omega, hl⟩]
        exact ⟨_, rfl, S.rr, c', rfl, e2⟩
      · rw [if_neg hl] at this
        rw [this, if_neg (fun h => hl h.2)]
        exact ⟨s, rfl, S⟩
  | createAbsolute path =>
    simp only [allowed, Bool.and_eq_true, Bool.not_eq_true'] at ha
    obtain ⟨s', e1, e2, e3⟩ := create_spec (s := { s with cur := some s.root }) (p := []) (c := s.root) S.rr rfl rfl
      path ha.1 ha.2
    simp only [step, Spec.ConfigDb.step, e1, Option.map_some, create]
    split at e3
    · rename_i hcond
      rw [if_pos hcond, decide_eq_true hcond]
      exact ⟨_, rfl, e3.1, e3.2⟩
    · rename_i hcond
      rw [if_neg hcond, decide_eq_false hcond]
      exact ⟨_, rfl, e3.1, s.root, e3.2.1, by rw [e3.2.2]; rfl⟩
  | createRelative path =>
    simp only [allowed, Bool.and_eq_true, Bool.not_eq_true'] at ha
    obtain ⟨s', e1, e2, e3⟩ := create_spec (s := s) (p := db.cur) (c := c) S.rr hc hcur path ha.1 ha.2
    simp only [step, Spec.ConfigDb.step, e1, Option.map_some, create]
    split at e3
    · rename_i hcond
      rw [if_pos hcond, decide_eq_true hcond]
      exact ⟨_, rfl, e3.1, e3.2⟩
    · rename_i hcond
      rw [if_neg hcond, decide_eq_false hcond]
      exact ⟨_, rfl, e3.1, c, by rw [e3.2.1, hcur], by rw [e3.2.2]; exact hc⟩
  | getName =>
    refine ⟨s, ?_, S⟩
    simp only [step, Spec.ConfigDb.step, hcur, Option.map_some]
    by_cases hp : db.cur = []
    · have : c = s.root := by
        rw [hp] at hc; simpa [walk] using hc.symm
      rw [hp, this, hr.1]; rfl
    · rw [last_name hp hc]
  | getChildName i =>
    refine ⟨s, ?_, S⟩
    simp only [step, Spec.ConfigDb.step, hcur, Option.bind_some, get, hch, List.getElem?_map]
  | getNumberOfChildren =>
    refine ⟨s, ?_, S⟩
    simp only [step, Spec.ConfigDb.step, hcur, Option.map_some, Option.getD_some, hch, List.length_map]

theorem sim_init : Sim (init : St V) empty := by
  have hno : ∀ i n, child (init : St V).heap i n = none := by intro i n; rfl
  refine ⟨⟨⟨rfl, ?_⟩, ?_⟩, 0, rfl, rfl⟩
  · intro q i hw
    cases q with
    | nil =>
      simp only [walk, Option.some.injEq, Ent.node.injEq] at hw
      subst hw
      exact ⟨Nat.zero_lt_one, MapOk.nil, by intro j hj; simp [init, newNd] at hj⟩
    | cons a b => simp [walk, hno] at hw
  · intro q
    cases q with
    | nil => rfl
    | cons a b => simp [view, walk, hno, empty]

theorem sim_run {s : St V} {db : Db V} (S : Sim s db) (hr : RootName s) (ops : List (Op V))
    (ha : allAllowed db ops = true) :
    ∃ s', run s ops = some ((Spec.ConfigDb.run db ops).1, s') ∧ Sim s' (Spec.ConfigDb.run db ops).2 ∧ RootName s' := by
  induction ops generalizing s db with
  | nil => exact ⟨s, rfl, S, hr⟩
  | cons op ops ih =>
    simp only [allAllowed, Bool.and_eq_true] at ha
    obtain ⟨s1, e1, S1⟩ := sim_step S hr op ha.1
    obtain ⟨s2, e2, S2, hr2⟩ := ih S1 (step_root hr e1) ha.2
    refine ⟨s2, ?_, S2, hr2⟩
    simp only [run, e1, Option.bind_some, e2, Option.map_some, Spec.ConfigDb.run]

end Verif.ConfigDb
