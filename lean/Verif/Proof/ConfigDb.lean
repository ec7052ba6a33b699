import Verif.Spec.ConfigDb

namespace Verif.ConfigDb
open Verif.Spec.ConfigDb

variable {V : Type}

/-- The child with a name. -/
def child (h : Nat → Nd V) (i : Nat) (n : Name) : Option (Ent V) := (h i).ents.find? (fun e => entName h e = n)

/-- Following a path of names from an element. -/
def walk (h : Nat → Nd V) : Ent V → List Name → Option (Ent V)
  | e, [] => some e
  | .leaf _ _, _ :: _ => none
  | .node i, n :: p => (child h i n).bind fun e => walk h e p

def content (h : Nat → Nd V) : Ent V → Item V
  | .leaf _ v => .leaf v
  | .node i => .node ((h i).ents.map (entName h))

def view (h : Nat → Nd V) (root : Nat) (q : List Name) : Option (Item V) := (walk h (.node root) q).map (content h)

/-- The index of the names of a node is right. -/
def MapOk (t : List (Name × Nat)) (ns : List Name) : Prop := ∀ n k, search t n = some k ↔ ns[k]? = some n

structure NdOk (h : Nat → Nd V) (next i : Nat) : Prop where
  lt : i < next
  map : MapOk (h i).tree ((h i).ents.map (entName h))
  parent : ∀ j, Ent.node j ∈ (h i).ents → (h j).parent = some i

structure Inv (h : Nat → Nd V) (next root : Nat) : Prop where
  rootp : (h root).parent = none
  ok : ∀ q i, walk h (.node root) q = some (.node i) → NdOk h next i

theorem snoc_cases {α : Type} (l : List α) : l = [] ∨ ∃ l' a, l = l' ++ [a] := by
  rcases List.eq_nil_or_concat l with h | ⟨l', a, h⟩
  · exact .inl h
  · exact .inr ⟨l', a, by rw [h, List.concat_eq_append]⟩

theorem walk_append (h : Nat → Nd V) (e : Ent V) (p q : List Name) :
    walk h e (p ++ q) = (walk h e p).bind fun e => walk h e q := by
  induction p generalizing e with
  | nil => simp [walk]
  | cons n p ih =>
    cases e with
    | leaf m v => simp [walk]
    | node i =>
      simp only [List.cons_append, walk]
      cases child h i n with
      | none => rfl
      | some e => exact ih e

theorem child_mem {h : Nat → Nd V} {i n e} (hc : child h i n = some e) : e ∈ (h i).ents ∧ entName h e = n :=
  ⟨List.mem_of_find?_eq_some hc, by simpa using List.find?_some hc⟩

theorem walk_snoc {h : Nat → Nd V} {r : Ent V} {p n e} (hw : walk h r (p ++ [n]) = some e) :
    ∃ i, walk h r p = some (.node i) ∧ child h i n = some e := by
  rw [walk_append] at hw
  cases hp : walk h r p with
  | none => rw [hp] at hw; simp at hw
  | some x =>
    rw [hp] at hw
    cases x with
    | leaf m v => simp [walk] at hw
    | node i =>
      simp only [Option.bind_some, walk] at hw
      refine ⟨i, rfl, ?_⟩
      cases hc : child h i n with
      | none => rw [hc] at hw; simp at hw
      | some y => rw [hc] at hw; simpa [walk] using hw

/-- A node is at one path only. -/
theorem uniq {h : Nat → Nd V} {next root : Nat} (inv : Inv h next root) (p q : List Name) (i : Nat)
    (hp : walk h (.node root) p = some (.node i)) (hq : walk h (.node root) q = some (.node i)) : p = q := by
  suffices H : ∀ k (p q : List Name) i, p.length = k → walk h (.node root) p = some (.node i) →
      walk h (.node root) q = some (.node i) → p = q from H p.length p q i rfl hp hq
  intro k
  have hparent : ∀ (p : List Name) n i, walk h (.node root) (p ++ [n]) = some (.node i) →
      ∃ j, walk h (.node root) p = some (.node j) ∧ (h i).parent = some j ∧ (h i).name = n := by
    intro p n i hw
    obtain ⟨j, h1, h2⟩ := walk_snoc hw
    have h3 := child_mem h2
    exact ⟨j, h1, (inv.ok p j h1).parent i h3.1, h3.2⟩
  induction k with
  | zero =>
    intro p q i hl hp hq
    have : p = [] := List.eq_nil_of_length_eq_zero hl
    subst this
    simp only [walk, Option.some.injEq, Ent.node.injEq] at hp
    subst hp
    cases snoc_cases q with
    | inl h => exact h.symm
    | inr h2 =>
      obtain ⟨q', n, rfl⟩ := h2
      obtain ⟨j, _, h4, _⟩ := hparent q' n _ hq
      rw [inv.rootp] at h4; simp at h4
  | succ k ih =>
    intro p q i hl hp hq
    cases snoc_cases p with
    | inl h => rw [h] at hl; simp at hl
    | inr h1 =>
      obtain ⟨p', n, rfl⟩ := h1
      obtain ⟨j, a1, a2, a3⟩ := hparent p' n _ hp
      cases snoc_cases q with
      | inl h =>
        subst h
        simp only [walk, Option.some.injEq, Ent.node.injEq] at hq
        subst hq
        rw [inv.rootp] at a2; simp at a2
      | inr h2 =>
        obtain ⟨q', m, rfl⟩ := h2
        obtain ⟨j', b1, b2, b3⟩ := hparent q' m _ hq
        rw [a2] at b2
        simp only [Option.some.injEq] at b2
        subst b2
        have : p' = q' := ih p' q' j (by simpa using hl) a1 b1
        rw [this, ← a3, ← b3]

theorem nodup_of_map {t : List (Name × Nat)} {ns : List Name} (hm : MapOk t ns) {a b : Nat} {n : Name}
    (ha : ns[a]? = some n) (hb : ns[b]? = some n) : a = b := by
  have h1 := (hm n a).mpr ha
  have h2 := (hm n b).mpr hb
  rw [h1] at h2; simpa using h2

theorem find_of_idx {h : Nat → Nd V} {es : List (Ent V)} {t} (hm : MapOk t (es.map (entName h))) {k : Nat} {e : Ent V}
    (he : es[k]? = some e) : es.find? (fun x => entName h x = entName h e) = some e := by
  have hex : (es.find? (fun x => decide (entName h x = entName h e))).isSome := by
    rw [List.find?_isSome]; exact ⟨e, List.mem_of_getElem? he, by simp⟩
  obtain ⟨y, hy⟩ := Option.isSome_iff_exists.mp hex
  have h1 := List.mem_of_find?_eq_some hy
  have h2 : entName h y = entName h e := by simpa using List.find?_some hy
  obtain ⟨l, hl, hly⟩ := List.getElem_of_mem h1
  have hyl : es[l]? = some y := by rw [List.getElem?_eq_getElem hl, hly]
  have : l = k := nodup_of_map hm (n := entName h e) (by rw [List.getElem?_map, hyl, Option.map_some, h2])
    (by rw [List.getElem?_map, he, Option.map_some])
  subst this
  rw [hyl] at he
  rw [hy]; exact he

/-- `FindLeaf` finds the child with that name. -/
theorem findLeaf_eq {h : Nat → Nd V} {next i : Nat} (ok : NdOk h next i) (n : Name) : findLeaf h i n = child h i n := by
  unfold findLeaf child
  cases hs : search (h i).tree n with
  | some k =>
    have hk := (ok.map n k).mp hs
    rw [List.getElem?_map] at hk
    cases he : (h i).ents[k]? with
    | none => rw [he] at hk; simp at hk
    | some e =>
      rw [he] at hk
      simp only [Option.map_some, Option.some.injEq] at hk
      have hlt : k < (h i).ents.length := by
        rcases Nat.lt_or_ge k (h i).ents.length with h1 | h1
        · exact h1
        · rw [List.getElem?_eq_none h1] at he; simp at he
      simp only [Option.bind_some, if_pos hlt, he]
      rw [← hk]
      exact (find_of_idx ok.map he).symm
  | none =>
    simp only [Option.bind_none]
    symm
    rw [List.find?_eq_none]
    intro e he hn
    simp only [decide_eq_true_eq] at hn
    obtain ⟨k, hk, hke⟩ := List.getElem_of_mem he
    have : search (h i).tree n = some k := (ok.map n k).mpr (by
      rw [List.getElem?_map, List.getElem?_eq_getElem hk, hke, Option.map_some, hn])
    rw [hs] at this; simp at this

theorem child_none_iff {h : Nat → Nd V} {i : Nat} (n : Name) :
    child h i n = none ↔ n ∉ (h i).ents.map (entName h) := by
  unfold child
  rw [List.find?_eq_none]
  simp only [decide_eq_true_eq, List.mem_map, not_exists, not_and]

/-- Two heaps that agree on the nodes met on the way give the same result. -/
theorem walk_frame (h h' : Nat → Nd V) (q : List Name) (e : Ent V)
    (H : ∀ m r k, q = m ++ r → r ≠ [] → walk h e m = some (.node k) →
      (h' k).ents = (h k).ents ∧ ∀ x ∈ (h k).ents, entName h' x = entName h x) : walk h' e q = walk h e q := by
  induction q generalizing e with
  | nil => simp [walk]
  | cons n q ih =>
    cases e with
    | leaf m v => simp [walk]
    | node i =>
      have h0 := H [] (n :: q) i rfl (by simp) rfl
      have hc : child h' i n = child h i n := by
        unfold child
        rw [h0.1]
        have gen : ∀ l : List (Ent V), (∀ x ∈ l, entName h' x = entName h x) →
            l.find? (fun e => decide (entName h' e = n)) = l.find? (fun e => decide (entName h e = n)) := by
          intro l hl
          induction l with
          | nil => rfl
          | cons x l ihl =>
            simp only [List.find?_cons, hl x (by simp)]
            rw [ihl (fun y hy => hl y (by simp [hy]))]
        exact gen _ h0.2
      simp only [walk, hc]
      cases hcc : child h i n with
      | none => rfl
      | some x =>
        simp only [Option.bind_some]
        apply ih
        intro m r k hq hr hw
        exact H (n :: m) r k (by rw [hq]; rfl) hr (by simp only [walk, hcc, Option.bind_some]; exact hw)

theorem prefix_eq {α : Type} {p q : List α} {n : α} (h : ∃ r, q = p ++ n :: r) : (p ++ [n]) <+: q := by
  obtain ⟨r, rfl⟩ := h; exact ⟨r, by simp⟩

/-- What one change of the heap does, that changes node `c` (at path `p`) and besides nodes (`D`) that were only below
`p/n`. -/
structure Change (h h' : Nat → Nd V) (next root c : Nat) (p : List Name) (n : Name) (D : Nat → Prop) : Prop where
  inv : Inv h next root
  at_ : walk h (.node root) p = some (.node c)
  same : ∀ k, k ≠ c → ¬ D k → h' k = h k
  cname : (h' c).name = (h c).name
  cparent : (h' c).parent = (h c).parent
  below : ∀ q k, walk h (.node root) q = some (.node k) → D k → ∃ r, q = p ++ n :: r
  others : ∀ m, m ≠ n → child h' c m = child h c m

theorem Change.names {h h' : Nat → Nd V} {next root c p n D} (C : Change h h' next root c p n D) {q : List Name} {k : Nat}
    (hq : ¬ (p ++ [n]) <+: q) (hw : walk h (.node root) q = some (.node k)) (hk : k ≠ c) :
    h' k = h k ∧ (∀ x ∈ (h k).ents, entName h' x = entName h x) ∧
      (∀ j, Ent.node j ∈ (h k).ents → (h' j).parent = (h j).parent) := by
  have hD : ¬ D k := fun hd => hq (prefix_eq (C.below q k hw hd))
  refine ⟨C.same k hk hD, ?_⟩
  have key : ∀ j, Ent.node j ∈ (h k).ents → (h' j).name = (h j).name ∧ (h' j).parent = (h j).parent := by
    intro j hj
    by_cases hjc : j = c
    · subst hjc; exact ⟨C.cname, C.cparent⟩
    · have hnd : ¬ D j := by
        intro hd
        -- the path of `j`
        have hok := C.inv.ok q k hw
        obtain ⟨l, hl, hlj⟩ := List.getElem_of_mem hj
        have hch : child h k (entName h (.node j)) = some (.node j) :=
          find_of_idx hok.map (by rw [List.getElem?_eq_getElem hl, hlj])
        have hwj : walk h (.node root) (q ++ [entName h (.node j)]) = some (.node j) := by
          rw [walk_append, hw]; simp [walk, hch]
        obtain ⟨r, hr⟩ := C.below _ _ hwj hd
        cases snoc_cases r with
        | inl h0 =>
          subst h0
          have : q = p := List.append_inj_left' hr rfl
          subst this
          have := C.at_
          rw [hw] at this
          simp only [Option.some.injEq, Ent.node.injEq] at this
          exact hk this
        | inr h0 =>
          obtain ⟨r', x, rfl⟩ := h0
          have : q = p ++ n :: r' := by
            have : q ++ [entName h (.node j)] = (p ++ n :: r') ++ [x] := by rw [hr]; simp
            exact List.append_inj_left' this rfl
          exact hq (prefix_eq ⟨r', this⟩)
      rw [C.same j hjc hnd]; exact ⟨rfl, rfl⟩
  refine ⟨?_, fun j hj => (key j hj).2⟩
  intro x hx
  cases x with
  | leaf m v => rfl
  | node j => exact (key j hx).1

/-- Paths not through `p`. -/
theorem Change.walk_out {h h' : Nat → Nd V} {next root c p n D} (C : Change h h' next root c p n D) (q : List Name)
    (hq : ∀ m r, q = p ++ m :: r → False) : walk h' (.node root) q = walk h (.node root) q := by
  apply walk_frame
  intro m r k hmr hr hw
  have hnp : ¬ p <+: m := by
    rintro ⟨t, ht⟩
    have : q = p ++ (t ++ r) := by rw [hmr, ← ht]; simp
    cases htr : t ++ r with
    | nil => simp at htr; exact hr htr.2
    | cons a b => rw [htr] at this; exact hq a b this
  have hk : k ≠ c := by
    intro hkc; subst hkc
    have := uniq C.inv _ _ _ hw C.at_
    exact hnp (by rw [this]; exact List.prefix_refl _)
  have := C.names (q := m) (k := k) (fun hpre => hnp ((List.prefix_append _ _).trans hpre)) hw hk
  exact ⟨by rw [this.1], this.2.1⟩

theorem Change.at' {h h' : Nat → Nd V} {next root c p n D} (C : Change h h' next root c p n D) :
    walk h' (.node root) p = some (.node c) := by
  rw [C.walk_out p (by intro m r h; have := congrArg List.length h; simp at this), C.at_]

/-- Paths not below `p/n` are as before. -/
theorem Change.walk_same {h h' : Nat → Nd V} {next root c p n D} (C : Change h h' next root c p n D) (q : List Name)
    (hq : ¬ (p ++ [n]) <+: q) : walk h' (.node root) q = walk h (.node root) q := by
  by_cases hp : ∃ m r, q = p ++ m :: r
  · obtain ⟨m, r, rfl⟩ := hp
    have hmn : m ≠ n := by
      rintro rfl; exact hq (prefix_eq ⟨r, rfl⟩)
    rw [walk_append, walk_append, C.at', C.at_]
    simp only [Option.bind_some, walk, C.others m hmn]
    cases hc : child h c m with
    | none => rfl
    | some e =>
      simp only [Option.bind_some]
      apply walk_frame
      intro m' r' k hr hr' hw
      have hpath : walk h (.node root) (p ++ m :: m') = some (.node k) := by
        rw [walk_append, C.at_]; simp only [Option.bind_some, walk, hc]; exact hw
      have hpre : ¬ (p ++ [n]) <+: (p ++ m :: m') := by
        rintro ⟨t, ht⟩
        simp only [List.append_assoc, List.singleton_append, List.append_cancel_left_eq, List.cons.injEq] at ht
        exact hmn ht.1.symm
      have hk : k ≠ c := by
        intro hkc; subst hkc
        have := uniq C.inv _ _ _ hpath C.at_
        simp at this
      have := C.names hpre hpath hk
      exact ⟨by rw [this.1], this.2.1⟩
  · exact C.walk_out q (fun m r h => hp ⟨m, r, h⟩)

theorem Change.walk_below {h h' : Nat → Nd V} {next root c p n D} (C : Change h h' next root c p n D) (r : List Name) :
    walk h' (.node root) (p ++ n :: r) = (child h' c n).bind fun e => walk h' e r := by
  rw [walk_append, C.at']; rfl

/-- The content at a path not below `p/n`, other than `p`. -/
theorem Change.view_same {h h' : Nat → Nd V} {next root c p n D} (C : Change h h' next root c p n D) (q : List Name)
    (hq : ¬ (p ++ [n]) <+: q) (hqp : q ≠ p) : view h' root q = view h root q := by
  unfold view
  rw [C.walk_same q hq]
  cases hw : walk h (.node root) q with
  | none => rfl
  | some e =>
    cases e with
    | leaf m v => rfl
    | node k =>
      have hk : k ≠ c := by
        intro hkc; subst hkc; exact hqp (uniq C.inv _ _ _ hw C.at_)
      have := C.names hq hw hk
      simp only [Option.map_some, content, Option.some.injEq, Item.node.injEq]
      rw [this.1]
      exact List.map_congr_left this.2.1

/-- The invariant after the change. -/
theorem Change.inv' {h h' : Nat → Nd V} {next root c p n D} (C : Change h h' next root c p n D) (next' : Nat)
    (hn : next ≤ next') (hc : NdOk h' next' c)
    (hb : ∀ r i, walk h' (.node root) (p ++ n :: r) = some (.node i) → NdOk h' next' i) : Inv h' next' root := by
  have hroot : (h' root).parent = none := by
    rw [← C.inv.rootp]
    by_cases hr : root = c
    · rw [hr]; exact C.cparent
    · rw [C.same root hr]
      intro hd
      obtain ⟨r, h0⟩ := C.below [] root rfl hd
      simp at h0
  refine ⟨hroot, ?_⟩
  intro q i hw
  by_cases hq : (p ++ [n]) <+: q
  · obtain ⟨r, rfl⟩ := hq
    exact hb r i (by simpa using hw)
  · rw [C.walk_same q hq] at hw
    by_cases hk : i = c
    · subst hk; exact hc
    · have h1 := C.names hq hw hk
      have h2 := C.inv.ok q i hw
      refine ⟨Nat.lt_of_lt_of_le h2.lt hn, ?_, ?_⟩
      · rw [h1.1, List.map_congr_left h1.2.1]; exact h2.map
      · intro j hj
        rw [h1.1] at hj
        rw [h1.2.2 j hj]; exact h2.parent j hj

/-! ### The index -/

theorem search_append (t : List (Name × Nat)) (n : Name) (k : Nat) (m : Name) :
    search (t ++ [(n, k)]) m = match search t m with
      | some x => some x
      | none => if m = n then some k else none := by
  unfold search
  rw [List.find?_append]
  cases t.find? (fun e => decide (e.1 = m)) with
  | some x => rfl
  | none =>
    simp only [Option.map_none, Option.none_or, List.find?_cons]
    by_cases hm : n = m
    · subst hm; simp
    · simp [hm, Ne.symm hm]

theorem MapOk.append {t : List (Name × Nat)} {ns : List Name} (hm : MapOk t ns) {n : Name} (hn : n ∉ ns) :
    MapOk (t ++ [(n, ns.length)]) (ns ++ [n]) := by
  intro m k
  rw [search_append]
  cases hs : search t m with
  | some x =>
    have hx := (hm m x).mp hs
    have hxl : x < ns.length := by
      rcases Nat.lt_or_ge x ns.length with h | h
      · exact h
      · rw [List.getElem?_eq_none h] at hx; simp at hx
    simp only [Option.some.injEq]
    constructor
    · intro hxk; subst hxk; rw [List.getElem?_append_left hxl]; exact hx
    · intro hk
      rcases Nat.lt_or_ge k ns.length with h | h
      · rw [List.getElem?_append_left h] at hk
        exact nodup_of_map hm hx hk
      · rw [List.getElem?_append_right h] at hk
        have hmn : n = m := by
          cases hkk : k - ns.length with
          | zero => rw [hkk] at hk; simpa using hk
          | succ j => rw [hkk] at hk; simp at hk
        subst hmn
        exact absurd (List.mem_of_getElem? hx) hn
  | none =>
    simp only
    have hnm : ∀ k : Nat, ns[k]? ≠ some m := by
      intro k hk; have := (hm m k).mpr hk; rw [hs] at this; simp at this
    by_cases h : m = n
    · subst h
      simp only [if_true, Option.some.injEq]
      constructor
      · intro h; subst h; simp
      · intro hk
        rcases Nat.lt_or_ge k ns.length with h | h
        · rw [List.getElem?_append_left h] at hk; exact absurd hk (hnm k)
        · rw [List.getElem?_append_right h] at hk
          cases hkk : k - ns.length with
          | zero => omega
          | succ j => rw [hkk] at hk; simp at hk
    · rw [if_neg h]
      simp only [reduceCtorEq, false_iff]
      intro hk
      rcases Nat.lt_or_ge k ns.length with h2 | h2
      · rw [List.getElem?_append_left h2] at hk; exact hnm k hk
      · rw [List.getElem?_append_right h2] at hk
        cases hkk : k - ns.length with
        | zero => rw [hkk] at hk; simp at hk; exact h hk.symm
        | succ j => rw [hkk] at hk; simp at hk

theorem MapOk.nil : MapOk [] [] := by intro n k; simp [search]

theorem rebuild_spec (h : Nat → Nd V) (es : List (Ent V)) (done : List Name) (t : List (Name × Nat))
    (hm : MapOk t done) (hnd : (done ++ es.map (entName h)).Nodup) :
    ∃ t', rebuild h es done.length t = (true, t') ∧ MapOk t' (done ++ es.map (entName h)) := by
  induction es generalizing done t with
  | nil => exact ⟨t, rfl, by simpa using hm⟩
  | cons e es ih =>
    have hn : entName h e ∉ done := by
      intro hin
      rw [List.nodup_append] at hnd
      exact hnd.2.2 _ hin _ (by simp) rfl
    have hs : search t (entName h e) = none := by
      cases hs : search t (entName h e) with
      | none => rfl
      | some k => exact absurd (List.mem_of_getElem? ((hm _ _).mp hs)) hn
    have := ih (done ++ [entName h e]) (t ++ [(entName h e, done.length)]) (hm.append hn) (by simpa using hnd)
    simp only [rebuild, hs]
    simpa using this

theorem nodup_of_mapOk {t : List (Name × Nat)} {ns : List Name} (hm : MapOk t ns) : ns.Nodup := by
  rw [List.nodup_iff_pairwise_ne, List.pairwise_iff_getElem]
  intro i j hi hj hij he
  have := nodup_of_map hm (n := ns[i]) (List.getElem?_eq_getElem hi) (by rw [he]; exact List.getElem?_eq_getElem hj)
  omega

/-! ### Paths -/

theorem getToken_last (n : Name) (hn : n ≠ []) (hd : '.' ∉ n) (hz : '\x00' ∉ n) (hl : n.length < 2 ^ 32) :
    Verif.Token.getToken ['.'] none n = ⟨true, n, '\x00', []⟩ := by
  have gen : ∀ (s out : List Char), '.' ∉ s → '\x00' ∉ s → (out.length + s.length < 2 ^ 32) → out ++ s ≠ [] →
      Verif.Token.getTokenLoop ['.'] ['.'] s out.length out = ⟨true, out ++ s, '\x00', []⟩ := by
    intro s
    induction s with
    | nil => intro out _ _ _ h; simp at h; simp [Verif.Token.getTokenLoop, h]
    | cons c cs ih =>
      intro out h1 h2 h3 _
      simp only [List.mem_cons, not_or, List.length_cons] at h1 h2 h3
      have e : (out.length + 1) % 2 ^ 32 = (out ++ [c]).length := by rw [Nat.mod_eq_of_lt (by omega)]; simp
      simp only [Verif.Token.getTokenLoop, Verif.Token.searchChar, List.contains_eq_mem, List.mem_singleton, e]
      rw [if_neg (by simp [Ne.symm h1.1, Ne.symm h2.1]), if_pos (by simp [Ne.symm h1.1, Ne.symm h2.1])]
      rw [ih (out ++ [c]) h1.2 h2.2 (by simp; omega) (by simp)]
      simp
  simpa [Verif.Token.getToken] using gen n [] hd hz (by simpa using hl) (by simpa using hn)

theorem getToken_dot (n rest : List Char) (hn : n ≠ []) (hd : '.' ∉ n) (hz : '\x00' ∉ n) (hl : n.length < 2 ^ 32) :
    Verif.Token.getToken ['.'] none (n ++ '.' :: rest) = ⟨true, n, '.', rest⟩ := by
  have gen : ∀ (s out : List Char), '.' ∉ s → '\x00' ∉ s → (out.length + s.length < 2 ^ 32) → out ++ s ≠ [] →
      Verif.Token.getTokenLoop ['.'] ['.'] (s ++ '.' :: rest) out.length out = ⟨true, out ++ s, '.', rest⟩ := by
    intro s
    induction s with
    | nil => intro out _ _ _ h; simp at h; simp [Verif.Token.getTokenLoop, Verif.Token.searchChar, h]
    | cons c cs ih =>
      intro out h1 h2 h3 _
      simp only [List.mem_cons, not_or, List.length_cons] at h1 h2 h3
      have e : (out.length + 1) % 2 ^ 32 = (out ++ [c]).length := by rw [Nat.mod_eq_of_lt (by omega)]; simp
      simp only [List.cons_append, Verif.Token.getTokenLoop, Verif.Token.searchChar, List.contains_eq_mem,
        List.mem_singleton, e]
      rw [if_neg (by simp [Ne.symm h1.1, Ne.symm h2.1]), if_pos (by simp [Ne.symm h1.1, Ne.symm h2.1])]
      rw [ih (out ++ [c]) h1.2 h2.2 (by simp; omega) (by simp)]
      simp
  simpa [Verif.Token.getToken] using gen n [] hd hz (by simpa using hl) (by simpa using hn)

/-- A well formed path is its first name, or its first name, a dot and a path. -/
theorem split_cases (path : List Char) : ∃ n r, splitDots path = n :: r ∧ '.' ∉ n ∧
    ((r = [] ∧ path = n) ∨ ∃ rest, r = splitDots rest ∧ path = n ++ '.' :: rest) := by
  induction path with
  | nil => exact ⟨[], [], rfl, by simp, .inl ⟨rfl, rfl⟩⟩
  | cons c cs ih =>
    by_cases hc : c = '.'
    · subst hc
      exact ⟨[], splitDots cs, by simp [splitDots], by simp, .inr ⟨cs, rfl, rfl⟩⟩
    · obtain ⟨n, r, h1, h2, h3⟩ := ih
      refine ⟨c :: n, r, by simp [splitDots, hc, h1], by simp [Ne.symm hc, h2], ?_⟩
      rcases h3 with ⟨a, b⟩ | ⟨rest, a, b⟩
      · exact .inl ⟨a, by rw [b]⟩
      · exact .inr ⟨rest, a, by rw [b]; rfl⟩

theorem splitDots_ne (path : List Char) : splitDots path ≠ [] := by
  obtain ⟨n, r, h, _⟩ := split_cases path
  rw [h]; simp

/-- `Find` follows the path. -/
theorem find_eq {h : Nat → Nd V} {next root : Nat} (inv : Inv h next root) (fuel : Nat) (path : List Char)
    (hf : path.length < fuel) (hl : path.length < 2 ^ 32) (hz : '\x00' ∉ path)
    (hns : ∀ n ∈ splitDots path, n ≠ []) (p : List Name) (c : Nat) (hc : walk h (.node root) p = some (.node c)) :
    find h fuel c path = walk h (.node c) (splitDots path) := by
  induction fuel generalizing path p c with
  | zero => omega
  | succ fuel ih =>
    obtain ⟨n, r, h1, h2, h3⟩ := split_cases path
    have hn : n ≠ [] := hns n (by rw [h1]; simp)
    have ok := inv.ok p c hc
    have hfl := findLeaf_eq ok n
    unfold findLeaf at hfl
    have hlt : ∀ k, search (h c).tree n = some k → k < (h c).ents.length := by
      intro k hk
      have := (ok.map n k).mp hk
      rcases Nat.lt_or_ge k (h c).ents.length with h | h
      · exact h
      · rw [List.getElem?_eq_none (by simpa using h)] at this; simp at this
    rcases h3 with ⟨a, b⟩ | ⟨rest, a, b⟩
    · subst a
      have hg := getToken_last n hn h2 (by rw [← b]; exact hz) (by rw [← b]; exact hl)
      subst b
      have hne : ¬ ('\x00' = '.') := by decide
      simp only [find, hg, if_true, if_neg hne]
      rw [h1]
      simp only [walk]
      rw [← hfl]
      cases hs : search (h c).tree path with
      | none => rfl
      | some k => simp only [Option.bind_some, if_pos (hlt k hs)]; cases (h c).ents[k]? <;> rfl
    · have hlen : path.length = n.length + 1 + rest.length := by rw [b]; simp; omega
      have hg := getToken_dot n rest hn h2 (by intro h; apply hz; rw [b]; simp [h]) (by omega)
      rw [← b] at hg
      have hdrop : path.drop (n.length + 1) = rest := by rw [b]; simp
      simp only [find, hg, if_true, hdrop]
      rw [h1]
      simp only [walk]
      rw [← hfl]
      cases hs : search (h c).tree n with
      | none => rfl
      | some k =>
        simp only [Option.bind_some, if_pos (hlt k hs)]
        cases he : (h c).ents[k]? with
        | none => rfl
        | some e =>
          have hch : child h c n = some e := by
            rw [← hfl, hs]; simp only [Option.bind_some, if_pos (hlt k hs), he]
          have hrest : rest ≠ [] := by
            intro h0
            rw [h0] at a
            exact hns [] (by rw [h1, a]; simp [splitDots]) rfl
          cases e with
          | leaf m v =>
            simp only [Option.bind_some, a]
            cases hsp : splitDots rest with
            | nil => exact absurd hsp (splitDots_ne _)
            | cons x y => simp [walk]
          | node j =>
            have hpos : rest.length > 0 := by cases rest with | nil => exact absurd rfl hrest | cons _ _ => simp
            simp only [if_pos hpos, Option.bind_some]
            rw [ih rest (by omega) (by omega) (by intro h; apply hz; rw [b]; simp [h])
              (by intro x hx; exact hns x (by rw [h1, a]; simp [hx])) (p ++ [n]) j
              (by rw [walk_append, hc]; simp [walk, hch]), a]


/-! ### The calls -/

/-- The heap represents the tree. -/
structure RR (h : Nat → Nd V) (next root : Nat) (item : List Name → Option (Item V)) : Prop where
  inv : Inv h next root
  view : ∀ q, view h root q = item q

theorem entName_of_names {h h' : Nat → Nd V} (H : ∀ k, (h' k).name = (h k).name) (e : Ent V) :
    entName h' e = entName h e := by
  cases e with
  | leaf _ _ => rfl
  | node j => exact H j

theorem RR.children {h : Nat → Nd V} {next root : Nat} {item} (R : RR h next root item) {p c}
    (hc : walk h (.node root) p = some (.node c)) : children item p = (h c).ents.map (entName h) := by
  have := R.view p
  unfold ConfigDb.view at this
  rw [hc] at this
  unfold Spec.ConfigDb.children
  rw [← this]; rfl

theorem RR.item_child {h : Nat → Nd V} {next root : Nat} {item} (R : RR h next root item) {p c}
    (hc : walk h (.node root) p = some (.node c)) (n : Name) : item (p ++ [n]) = (child h c n).map (content h) := by
  rw [← R.view, ConfigDb.view, walk_append, hc]
  simp only [Option.bind_some, walk]
  cases child h c n <;> rfl

theorem setNd_same (h : Nat → Nd V) (i n) : setNd h i n i = n := by simp [setNd]
theorem setNd_ne (h : Nat → Nd V) {i k : Nat} (n) (hk : k ≠ i) : setNd h i n k = h k := by simp [setNd, hk]

theorem isPrefixOf_iff {p q : List Name} : p.isPrefixOf q = true ↔ p <+: q := List.isPrefixOf_iff_prefix

/-- How the tree looks after a change. -/
theorem Change.view' {h h' : Nat → Nd V} {next root c p n D} (C : Change h h' next root c p n D) (q : List Name) :
    view h' root q = if (p ++ [n]).isPrefixOf q then
        ((child h' c n).bind fun e => walk h' e (q.drop (p.length + 1))).map (content h')
      else if q = p then some (.node ((h' c).ents.map (entName h'))) else view h root q := by
  by_cases hq : (p ++ [n]) <+: q
  · rw [if_pos (isPrefixOf_iff.mpr hq)]
    obtain ⟨r, rfl⟩ := hq
    have hd : (p ++ [n] ++ r).drop (p.length + 1) = r := by
      rw [List.drop_append_of_le_length (by simp)]; simp
    rw [hd, view, List.append_assoc, List.singleton_append, C.walk_below r]
  · rw [if_neg (fun h => hq (isPrefixOf_iff.mp h))]
    by_cases hqp : q = p
    · rw [if_pos hqp]; subst hqp
      rw [view, C.at']; rfl
    · rw [if_neg hqp]; exact C.view_same q hq hqp

theorem find_set {h : Nat → Nd V} (es : List (Ent V)) (k : Nat) (ref e0 : Ent V) (m : Name) (hk : es[k]? = some e0)
    (h0 : entName h e0 ≠ m) (h1 : entName h ref ≠ m) :
    (es.set k ref).find? (fun e => decide (entName h e = m)) = es.find? (fun e => decide (entName h e = m)) := by
  induction es generalizing k with
  | nil => simp at hk
  | cons x es ih =>
    cases k with
    | zero =>
      simp only [List.getElem?_cons_zero, Option.some.injEq] at hk; subst hk
      simp [h0, h1]
    | succ k =>
      simp only [List.set_cons_succ, List.find?_cons]
      rw [ih k (by simpa using hk)]

theorem find_erase {h : Nat → Nd V} (es : List (Ent V)) (k : Nat) (e0 : Ent V) (m : Name) (hk : es[k]? = some e0)
    (h0 : entName h e0 ≠ m) :
    (es.take k ++ es.drop (k + 1)).find? (fun e => decide (entName h e = m)) =
      es.find? (fun e => decide (entName h e = m)) := by
  induction es generalizing k with
  | nil => simp at hk
  | cons x es ih =>
    cases k with
    | zero =>
      simp only [List.getElem?_cons_zero, Option.some.injEq] at hk; subst hk
      simp [h0]
    | succ k =>
      simp only [List.take_succ_cons, List.drop_succ_cons, List.cons_append, List.find?_cons]
      rw [ih k (by simpa using hk)]

theorem map_set_same {h : Nat → Nd V} (es : List (Ent V)) (k : Nat) (ref e0 : Ent V) (hk : es[k]? = some e0)
    (h0 : entName h ref = entName h e0) : (es.set k ref).map (entName h) = es.map (entName h) := by
  induction es generalizing k with
  | nil => rfl
  | cons x es ih =>
    cases k with
    | zero =>
      simp only [List.getElem?_cons_zero, Option.some.injEq] at hk; subst hk
      simp [h0]
    | succ k => simp [ih k (by simpa using hk)]

theorem lt_of_getElem? {α : Type} {l : List α} {k : Nat} {x : α} (h : l[k]? = some x) : k < l.length := by
  rcases Nat.lt_or_ge k l.length with h1 | h1
  · exact h1
  · rw [List.getElem?_eq_none h1] at h; simp at h

/-- `Write`. -/
theorem write_spec {h : Nat → Nd V} {next root : Nat} {item} (R : RR h next root item) {p c}
    (hc : walk h (.node root) p = some (.node c)) (n : Name) (v : V) :
    ∃ h', insert h c (.leaf n v) false = (true, h') ∧ RR h' next root (setLeaf item p n v) ∧
      walk h' (.node root) p = some (.node c) := by
  have ok := R.inv.ok p c hc
  have hch := R.children hc
  -- the common part
  have fin : ∀ (nd : Nd V), nd.name = (h c).name → nd.parent = (h c).parent →
      (∀ m, m ≠ n → nd.ents.find? (fun e => decide (entName h e = m)) = (h c).ents.find? (fun e => decide (entName h e = m))) →
      nd.ents.find? (fun e => decide (entName h e = n)) = some (.leaf n v) →
      MapOk nd.tree (nd.ents.map (entName h)) →
      (∀ j, Ent.node j ∈ nd.ents → Ent.node j ∈ (h c).ents) →
      nd.ents.map (entName h) = (if n ∈ children item p then children item p else children item p ++ [n]) →
      RR (setNd h c nd) next root (setLeaf item p n v) ∧
      walk (setNd h c nd) (.node root) p = some (.node c) := by
    intro nd hname hpar hoth hnew hmap hsub hnames
    have hN : ∀ e, entName (setNd h c nd) e = entName h e := entName_of_names (by
      intro k
      by_cases hk : k = c
      · subst hk; rw [setNd_same]; exact hname
      · rw [setNd_ne _ _ hk])
    have hNm : (entName (setNd h c nd)) = entName h := funext hN
    have C : Change h (setNd h c nd) next root c p n (fun _ => False) :=
      ⟨R.inv, hc, fun k hk _ => setNd_ne _ _ hk, by rw [setNd_same, hname], by rw [setNd_same, hpar],
        fun _ _ _ h => h.elim, by
          intro m hm
          unfold child
          rw [setNd_same, hNm]; exact hoth m hm⟩
    have hcn : child (setNd h c nd) c n = some (.leaf n v) := by
      unfold child; rw [setNd_same, hNm]; exact hnew
    refine ⟨⟨C.inv' next (Nat.le_refl _) ⟨ok.lt, ?_, ?_⟩ ?_, ?_⟩, C.at'⟩
    · rw [setNd_same, hNm]; exact hmap
    · intro j hj
      rw [setNd_same] at hj
      have hj' := ok.parent j (hsub j hj)
      by_cases hjc : j = c
      · subst hjc; rw [setNd_same, hpar]; exact hj'
      · rw [setNd_ne _ _ hjc]; exact hj'
    · intro r i hw
      rw [C.walk_below r, hcn] at hw
      cases r <;> simp [walk] at hw
    · intro q
      rw [C.view' q, hcn, setNd_same, hNm, hnames]
      unfold setLeaf
      by_cases hq : q = p ++ [n]
      · subst hq
        rw [if_pos (isPrefixOf_iff.mpr (List.prefix_refl _)), if_pos rfl]
        simp [walk, content]
      · rw [if_neg hq]
        by_cases hpre : (p ++ [n]).isPrefixOf q = true
        · rw [if_pos hpre, if_pos hpre]
          obtain ⟨r, rfl⟩ := isPrefixOf_iff.mp hpre
          have hd : (p ++ [n] ++ r).drop (p.length + 1) = r := by
            rw [List.drop_append_of_le_length (by simp)]; simp
          rw [hd]
          cases r with
          | nil => simp at hq
          | cons a b => simp [walk]
        · rw [if_neg hpre, if_neg hpre, R.view]
  unfold insert
  simp only [entName]
  cases hs : search (h c).tree n with
  | some k =>
    have hk := (ok.map n k).mp hs
    rw [List.getElem?_map] at hk
    cases he : (h c).ents[k]? with
    | none => rw [he] at hk; simp at hk
    | some e0 =>
      rw [he] at hk
      simp only [Option.map_some, Option.some.injEq] at hk
      have hnm : ((h c).ents.set k (.leaf n v)).map (entName h) = (h c).ents.map (entName h) :=
        map_set_same _ k _ e0 he (by rw [hk]; rfl)
      have hlt := lt_of_getElem? he
      refine ⟨_, rfl, fin _ rfl rfl ?_ ?_ ?_ ?_ ?_⟩
      · intro m hm
        exact find_set _ k _ e0 m he (by rw [hk]; exact Ne.symm hm) (by simp only [entName]; exact Ne.symm hm)
      · have := find_of_idx (h := h) (es := (h c).ents.set k (.leaf n v)) (t := (h c).tree) (by rw [hnm]; exact ok.map)
          (k := k) (e := .leaf n v) (by rw [List.getElem?_set_self hlt])
        exact this
      · rw [hnm]; exact ok.map
      · intro j hj
        rcases List.mem_or_eq_of_mem_set hj with h | h
        · exact h
        · simp at h
      · rw [hnm, hch, if_pos]
        exact List.mem_map.mpr ⟨e0, List.mem_of_getElem? he, hk⟩
  | none =>
    have hnot : n ∉ (h c).ents.map (entName h) := by
      intro hin
      obtain ⟨k, hk, hkn⟩ := List.getElem_of_mem hin
      have := (ok.map n k).mpr (by rw [List.getElem?_eq_getElem hk, hkn])
      rw [hs] at this; simp at this
    refine ⟨_, rfl, fin _ rfl rfl ?_ ?_ ?_ ?_ ?_⟩
    · intro m hm
      rw [List.find?_append]
      cases (h c).ents.find? (fun e => decide (entName h e = m)) with
      | some x => rfl
      | none => simp [entName, Ne.symm hm]
    · rw [List.find?_append]
      have : (h c).ents.find? (fun e => decide (entName h e = n)) = none := (child_none_iff n).mpr hnot
      rw [this]; simp [entName]
    · have := ok.map.append hnot
      simpa [entName] using this
    · intro j hj
      rcases List.mem_append.mp hj with h | h
      · exact h
      · simp at h
    · rw [hch, if_neg hnot]; simp [entName]

/-- Only unreachable nodes changed. -/
theorem agree_below {h h' : Nat → Nd V} {next root : Nat} {item} (R : RR h next root item) (next' : Nat)
    (hn : next ≤ next') (H : ∀ k, k < next → h' k = h k) :
    RR h' next' root item ∧ ∀ q, walk h' (.node root) q = walk h (.node root) q := by
  have hnames : ∀ q k, walk h (.node root) q = some (.node k) →
      h' k = h k ∧ (∀ j, Ent.node j ∈ (h k).ents → h' j = h j) := by
    intro q k hw
    have hok := R.inv.ok q k hw
    refine ⟨H k hok.lt, ?_⟩
    intro j hj
    obtain ⟨l, hl, hlj⟩ := List.getElem_of_mem hj
    have hch : child h k (entName h (.node j)) = some (.node j) :=
      find_of_idx hok.map (by rw [List.getElem?_eq_getElem hl, hlj])
    have hwj : walk h (.node root) (q ++ [entName h (.node j)]) = some (.node j) := by
      rw [walk_append, hw]; simp [walk, hch]
    exact H j (R.inv.ok _ _ hwj).lt
  have hen : ∀ q k, walk h (.node root) q = some (.node k) → ∀ x ∈ (h k).ents, entName h' x = entName h x := by
    intro q k hw x hx
    cases x with
    | leaf _ _ => rfl
    | node j => simp only [entName]; rw [(hnames q k hw).2 j hx]
  have hwalk : ∀ q, walk h' (.node root) q = walk h (.node root) q := by
    intro q
    apply walk_frame
    intro m r k _ _ hw
    exact ⟨by rw [(hnames m k hw).1], hen m k hw⟩
  refine ⟨⟨⟨?_, ?_⟩, ?_⟩, hwalk⟩
  · rw [(hnames [] root rfl).1]; exact R.inv.rootp
  · intro q i hw
    rw [hwalk] at hw
    have hok := R.inv.ok q i hw
    refine ⟨Nat.lt_of_lt_of_le hok.lt hn, ?_, ?_⟩
    · rw [(hnames q i hw).1, List.map_congr_left (hen q i hw)]; exact hok.map
    · intro j hj
      rw [(hnames q i hw).1] at hj
      rw [(hnames q i hw).2 j hj]; exact hok.parent j hj
  · intro q
    rw [← R.view q]
    unfold ConfigDb.view
    rw [hwalk]
    cases hw : walk h (.node root) q with
    | none => rfl
    | some e =>
      cases e with
      | leaf _ _ => rfl
      | node k =>
        simp only [Option.map_some, content, (hnames q k hw).1]
        rw [List.map_congr_left (hen q k hw)]

/-- A new node. -/
theorem add_spec {h : Nat → Nd V} {next root : Nat} {item} (R : RR h next root item) {p c}
    (hc : walk h (.node root) p = some (.node c)) (n : Name) (hn : item (p ++ [n]) = none) :
    ∃ h', insert (setNd h next (newNd n none)) c (.node next) true = (true, h') ∧
      RR (setNd h' next { h' next with parent := some c }) (next + 1) root (addNode item p n) ∧
      walk (setNd h' next { h' next with parent := some c }) (.node root) (p ++ [n]) = some (.node next) := by
  have ok := R.inv.ok p c hc
  have hch := R.children hc
  have hcn : c ≠ next := Nat.ne_of_lt ok.lt
  have hnone : child h c n = none := by
    have := R.item_child hc n
    rw [hn] at this
    cases hx : child h c n with
    | none => rfl
    | some x => rw [hx] at this; simp at this
  have hnot := (child_none_iff n).mp hnone
  have hs : search (h c).tree n = none := by
    cases hs : search (h c).tree n with
    | none => rfl
    | some k => exact absurd (List.mem_of_getElem? ((ok.map n k).mp hs)) hnot
  have hins : insert (setNd h next (newNd n none)) c (.node next) true =
      (true, setNd (setNd h next (newNd n none)) c
        { h c with ents := (h c).ents ++ [.node next], tree := (h c).tree ++ [(n, (h c).ents.length)] }) := by
    unfold insert
    simp only [entName, setNd_same, setNd_ne _ _ hcn, newNd, hs]
  rw [hins]
  refine ⟨_, rfl, ?_⟩
  generalize hh : setNd (setNd (setNd h next (newNd n none)) c
        { h c with ents := (h c).ents ++ [.node next], tree := (h c).tree ++ [(n, (h c).ents.length)] }) next
      { setNd (setNd h next (newNd n none)) c
        { h c with ents := (h c).ents ++ [.node next], tree := (h c).tree ++ [(n, (h c).ents.length)] } next
        with parent := some c } = h'
  have e1 : h' next = newNd n (some c) := by
    rw [← hh, setNd_same, setNd_ne _ _ (Ne.symm hcn), setNd_same]; rfl
  have e2 : h' c = { h c with ents := (h c).ents ++ [.node next], tree := (h c).tree ++ [(n, (h c).ents.length)] } := by
    rw [← hh, setNd_ne _ _ hcn, setNd_same]
  have e3 : ∀ k, k ≠ c → k ≠ next → h' k = h k := by
    intro k h1 h2
    rw [← hh, setNd_ne _ _ h2, setNd_ne _ _ h1, setNd_ne _ _ h2]
  have hkid : ∀ j, Ent.node j ∈ (h c).ents → j ≠ next := by
    intro j hj
    obtain ⟨l, hl, hlj⟩ := List.getElem_of_mem hj
    have hchj : child h c (entName h (.node j)) = some (.node j) :=
      find_of_idx ok.map (by rw [List.getElem?_eq_getElem hl, hlj])
    have hwj : walk h (.node root) (p ++ [entName h (.node j)]) = some (.node j) := by
      rw [walk_append, hc]; simp [walk, hchj]
    exact Nat.ne_of_lt (R.inv.ok _ _ hwj).lt
  have hN : ∀ x ∈ (h c).ents, entName h' x = entName h x := by
    intro x hx
    cases x with
    | leaf _ _ => rfl
    | node j =>
      simp only [entName]
      by_cases hj : j = c
      · subst hj; rw [e2]
      · rw [e3 j hj (hkid j hx)]
  have hfind : ∀ (l : List (Ent V)) m, (∀ x ∈ l, entName h' x = entName h x) →
      l.find? (fun e => decide (entName h' e = m)) = l.find? (fun e => decide (entName h e = m)) := by
    intro l m hl
    induction l with
    | nil => rfl
    | cons x l ih =>
      simp only [List.find?_cons, hl x (by simp)]
      rw [ih (fun y hy => hl y (by simp [hy]))]
  have hnn : entName h' (.node next) = n := by simp only [entName, e1]; rfl
  have C : Change h h' next root c p n (fun k => k = next) :=
    ⟨R.inv, hc, fun k h1 h2 => e3 k h1 h2, by rw [e2], by rw [e2],
      fun q k hw hd => absurd (R.inv.ok q k hw).lt (by rw [hd]; exact Nat.lt_irrefl _), by
        intro m hm
        unfold child
        rw [e2]
        simp only [List.find?_append, hfind _ m hN]
        cases (h c).ents.find? (fun e => decide (entName h e = m)) with
        | some x => rfl
        | none => simp [hnn, Ne.symm hm]⟩
  have hchild : child h' c n = some (.node next) := by
    unfold child
    rw [e2]
    simp only [List.find?_append, hfind _ n hN]
    rw [show (h c).ents.find? (fun e => decide (entName h e = n)) = none from hnone]
    simp [hnn]
  have hnames : (h' c).ents.map (entName h') = (h c).ents.map (entName h) ++ [n] := by
    rw [e2]
    simp only [List.map_append, List.map_cons, List.map_nil, hnn]
    rw [List.map_congr_left hN]
  have hwn : walk h' (.node root) (p ++ [n]) = some (.node next) := by
    have := C.walk_below []
    rw [this, hchild]; rfl
  refine ⟨⟨C.inv' (next + 1) (by omega) ⟨by have := ok.lt; omega, ?_, ?_⟩ ?_, ?_⟩, hwn⟩
  · rw [hnames, e2]
    have := ok.map.append hnot
    simpa using this
  · intro j hj
    rw [e2] at hj
    rcases List.mem_append.mp hj with h1 | h1
    · have := ok.parent j h1
      by_cases hjc : j = c
      · subst hjc; rw [e2]; exact this
      · rw [e3 j hjc (hkid j h1)]; exact this
    · simp at h1; subst h1; rw [e1]; rfl
  · intro r i hw
    rw [C.walk_below r, hchild] at hw
    cases r with
    | nil =>
      simp only [Option.bind_some, walk, Option.some.injEq, Ent.node.injEq] at hw
      subst hw
      refine ⟨by omega, ?_, ?_⟩
      · rw [e1]; exact MapOk.nil
      · intro j hj; rw [e1] at hj; simp [newNd] at hj
    | cons a b => simp [walk, child, e1, newNd] at hw
  · intro q
    rw [C.view' q, hchild, hnames]
    unfold addNode
    by_cases hq : q = p ++ [n]
    · subst hq
      rw [if_pos (isPrefixOf_iff.mpr (List.prefix_refl _)), if_pos rfl]
      simp [walk, content, e1, newNd]
    · rw [if_neg hq]
      by_cases hpre : (p ++ [n]).isPrefixOf q = true
      · rw [if_pos hpre]
        obtain ⟨r, rfl⟩ := isPrefixOf_iff.mp hpre
        have hd : (p ++ [n] ++ r).drop (p.length + 1) = r := by
          rw [List.drop_append_of_le_length (by simp)]; simp
        rw [hd, if_neg (by intro h; have := congrArg List.length h; simp at this)]
        have hold : item (p ++ [n] ++ r) = none := by
          rw [← R.view, view, List.append_assoc, List.singleton_append, walk_append, hc]
          simp [walk, hnone]
        rw [hold]
        cases r with
        | nil => simp at hq
        | cons a b => simp [walk, child, e1, newNd]
      · rw [if_neg hpre, hch, R.view]

/-! ### Purge -/

/-- Reachable through the arrays of children. -/
inductive Reaches (h : Nat → Nd V) (i : Nat) : Nat → Prop
  | refl : Reaches h i i
  | step {j k : Nat} : Reaches h i j → Ent.node k ∈ (h j).ents → Reaches h i k

theorem Reaches.head {h : Nat → Nd V} {i j k : Nat} (hj : Ent.node j ∈ (h i).ents) (hr : Reaches h j k) :
    Reaches h i k := by
  induction hr with
  | refl => exact .step .refl hj
  | step _ h2 ih => exact .step ih h2

theorem Reaches.mono {h h' : Nat → Nd V} (H : ∀ k x, x ∈ (h' k).ents → x ∈ (h k).ents) {i k : Nat}
    (hr : Reaches h' i k) : Reaches h i k := by
  induction hr with
  | refl => exact .refl
  | step _ h2 ih => exact .step ih (H _ _ h2)

theorem ifNode_leaf {α : Type} (m : Name) (v : V) (f : Nat → α) (d : α) : ifNode (.leaf m v) f d = d := rfl
theorem ifNode_node {α : Type} (j : Nat) (f : Nat → α) (d : α) : ifNode (V := V) (.node j) f d = f j := rfl

theorem purge_spec (fuel : Nat) (h : Nat → Nd V) (i : Nat) :
    (∀ k, ¬ Reaches h i k → purge fuel h i k = h k) ∧ (∀ k, (purge fuel h i k).name = (h k).name) ∧
      (∀ k x, x ∈ (purge fuel h i k).ents → x ∈ (h k).ents) := by
  induction fuel generalizing h i with
  | zero => exact ⟨fun _ _ => rfl, fun _ => rfl, fun _ _ h => h⟩
  | succ fuel ih =>
    -- the loop over the children
    have loop : ∀ (es : List (Ent V)) (g : Nat → Nd V),
        (∀ k, (∀ j, Ent.node j ∈ es → ¬ Reaches g j k) →
          es.foldl (fun h e => ifNode e (purge fuel h) h) g k = g k) ∧
        (∀ k, (es.foldl (fun h e => ifNode e (purge fuel h) h) g k).name = (g k).name) ∧
        (∀ k x, x ∈ (es.foldl (fun h e => ifNode e (purge fuel h) h) g k).ents →
          x ∈ (g k).ents) := by
      intro es
      induction es with
      | nil => intro g; exact ⟨fun _ _ => rfl, fun _ => rfl, fun _ _ h => h⟩
      | cons e es ihes =>
        intro g
        cases e with
        | leaf m v =>
          simp only [List.foldl_cons, ifNode_leaf]
          have := ihes g
          exact ⟨fun k hk => this.1 k (fun j hj => hk j (by simp [hj])), this.2⟩
        | node j =>
          simp only [List.foldl_cons, ifNode_leaf, ifNode_node]
          have h1 := ih g j
          have h2 := ihes (purge fuel g j)
          refine ⟨?_, ?_, ?_⟩
          · intro k hk
            rw [h2.1 k (fun j' hj' hr => hk j' (by simp [hj']) (hr.mono h1.2.2))]
            exact h1.1 k (hk j (by simp))
          · intro k; rw [h2.2.1, h1.2.1]
          · intro k x hx; exact h1.2.2 k x (h2.2.2 k x hx)
    simp only [purge]
    have hsame : ∀ k, (setNd h i ⟨(h i).name, none, (h i).ents, (h i).tree⟩ k).ents = (h k).ents := by
      intro k
      by_cases hk : k = i
      · subst hk; rw [setNd_same]
      · rw [setNd_ne _ _ hk]
    have hsn : ∀ k, (setNd h i ⟨(h i).name, none, (h i).ents, (h i).tree⟩ k).name = (h k).name := by
      intro k
      by_cases hk : k = i
      · subst hk; rw [setNd_same]
      · rw [setNd_ne _ _ hk]
    have L := loop (h i).ents (setNd h i ⟨(h i).name, none, (h i).ents, (h i).tree⟩)
    refine ⟨?_, ?_, ?_⟩
    · intro k hk
      have hki : k ≠ i := by rintro rfl; exact hk .refl
      rw [setNd_ne _ _ hki, L.1 k, setNd_ne _ _ hki]
      intro j hj hr
      exact hk ((hr.mono (by intro k x hx; rw [hsame] at hx; exact hx)).head hj)
    · intro k
      by_cases hki : k = i
      · subst hki; rw [setNd_same, L.2.1, hsn]
      · rw [setNd_ne _ _ hki, L.2.1, hsn]
    · intro k x hx
      by_cases hki : k = i
      · subst hki; rw [setNd_same] at hx; simp at hx
      · rw [setNd_ne _ _ hki] at hx
        have := L.2.2 k x hx
        rw [hsame] at this; exact this

/-- What is reached from a node is below its path. -/
theorem reaches_path {h : Nat → Nd V} {next root : Nat} (inv : Inv h next root) {q : List Name} {j k : Nat}
    (hq : walk h (.node root) q = some (.node j)) (hr : Reaches h j k) :
    ∃ r, walk h (.node root) (q ++ r) = some (.node k) := by
  induction hr with
  | refl => exact ⟨[], by simpa using hq⟩
  | @step a b _ h2 ih =>
    obtain ⟨r, hw⟩ := ih
    have hok := inv.ok _ _ hw
    obtain ⟨l, hl, hlj⟩ := List.getElem_of_mem h2
    have hch : child h a (entName h (.node b)) = some (.node b) :=
      find_of_idx hok.map (by rw [List.getElem?_eq_getElem hl, hlj])
    refine ⟨r ++ [entName h (.node b)], ?_⟩
    rw [← List.append_assoc, walk_append, hw]; simp [walk, hch]

theorem filter_erase {h : Nat → Nd V} (es : List (Ent V)) (k : Nat) (e0 : Ent V) (hk : es[k]? = some e0)
    (hnd : (es.map (entName h)).Nodup) :
    (es.take k ++ es.drop (k + 1)).map (entName h) = (es.map (entName h)).filter (· ≠ entName h e0) := by
  induction es generalizing k with
  | nil => simp at hk
  | cons x es ih =>
    simp only [List.map_cons, List.nodup_cons] at hnd
    cases k with
    | zero =>
      simp only [List.getElem?_cons_zero, Option.some.injEq] at hk; subst hk
      simp only [List.take_zero, List.nil_append, List.drop_succ_cons, List.drop_zero, List.map_cons]
      rw [List.filter_cons_of_neg (by simp)]
      symm
      apply List.filter_eq_self.mpr
      intro a ha
      simp only [decide_eq_true_eq]
      rintro rfl; exact hnd.1 ha
    | succ k =>
      have hk' : es[k]? = some e0 := by simpa using hk
      have hne : entName h x ≠ entName h e0 := by
        intro he; apply hnd.1; rw [he]; exact List.mem_map.mpr ⟨e0, List.mem_of_getElem? hk', rfl⟩
      simp only [List.take_succ_cons, List.drop_succ_cons, List.cons_append, List.map_cons]
      rw [List.filter_cons_of_pos (by simpa using hne), ih k hk' hnd.2]

/-- `Delete`. -/
theorem delete_spec {h : Nat → Nd V} {next root : Nat} {item} (R : RR h next root item) {p c}
    (hc : walk h (.node root) p = some (.node c)) (n : Name) (e : Ent V) (he : child h c n = some e) (fuel : Nat) :
    ∃ h', delete fuel h c e = (true, h') ∧ RR h' next root (remove item p n) ∧
      walk h' (.node root) p = some (.node c) := by
  have ok := R.inv.ok p c hc
  have hch := R.children hc
  have hcm := child_mem he
  obtain ⟨k, hk, hke⟩ := List.getElem_of_mem hcm.1
  have hk? : (h c).ents[k]? = some e := by rw [List.getElem?_eq_getElem hk, hke]
  have hs : search (h c).tree (entName h e) = some k := (ok.map _ k).mpr (by
    rw [List.getElem?_map, hk?, Option.map_some])
  have hnd := nodup_of_mapOk ok.map
  have hfe := filter_erase (h c).ents k e hk? hnd
  obtain ⟨t', hreb, hmap⟩ := rebuild_spec h ((h c).ents.take k ++ (h c).ents.drop (k + 1)) [] [] MapOk.nil
    (by rw [List.nil_append, hfe]; exact List.Pairwise.filter _ hnd)
  simp only [List.length_nil] at hreb
  simp only [List.nil_append] at hmap
  -- the common part
  have fin : ∀ (h' : Nat → Nd V) (D : Nat → Prop),
      h' c = { h c with ents := (h c).ents.take k ++ (h c).ents.drop (k + 1), tree := t' } →
      (∀ k, k ≠ c → ¬ D k → h' k = h k) → (∀ k, (h' k).name = (h k).name) →
      (∀ q i, walk h (.node root) q = some (.node i) → D i → ∃ r, q = p ++ n :: r) →
      RR h' next root (remove item p n) ∧ walk h' (.node root) p = some (.node c) := by
    intro h' D e2 e3 e4 e5
    have hN : entName h' = entName h := funext (entName_of_names e4)
    have C : Change h h' next root c p n D := ⟨R.inv, hc, e3, e4 c, by rw [e2], e5, by
      intro m hm
      unfold child
      rw [e2, hN]
      exact find_erase _ k e m hk? (by rw [hcm.2]; exact Ne.symm hm)⟩
    have hnone : child h' c n = none := by
      rw [child_none_iff, e2, hN]
      simp only
      rw [hfe, hcm.2]
      simp
    have hsub : ∀ x, x ∈ (h c).ents.take k ++ (h c).ents.drop (k + 1) → x ∈ (h c).ents := by
      intro x hx
      rcases List.mem_append.mp hx with h1 | h1
      · exact List.mem_of_mem_take h1
      · exact List.mem_of_mem_drop h1
    refine ⟨⟨C.inv' next (Nat.le_refl _) ⟨ok.lt, ?_, ?_⟩ ?_, ?_⟩, C.at'⟩
    · rw [e2, hN]; exact hmap
    · intro j hj
      have hj0 := hj
      rw [e2] at hj
      have hpar := ok.parent j (hsub _ hj)
      by_cases hjc : j = c
      · subst hjc; rw [e2]; exact hpar
      · rw [e3 j hjc]
        · exact hpar
        · intro hd
          -- `j` is a child with another name
          obtain ⟨l, hl, hlj⟩ := List.getElem_of_mem (hsub _ hj)
          have hchj : child h c (entName h (.node j)) = some (.node j) :=
            find_of_idx ok.map (by rw [List.getElem?_eq_getElem hl, hlj])
          have hwj : walk h (.node root) (p ++ [entName h (.node j)]) = some (.node j) := by
            rw [walk_append, hc]; simp [walk, hchj]
          obtain ⟨r, hr⟩ := e5 _ _ hwj hd
          simp only [List.append_cancel_left_eq, List.cons.injEq] at hr
          have hmem : entName h (.node j) ∈ ((h c).ents.take k ++ (h c).ents.drop (k + 1)).map (entName h) :=
            List.mem_map.mpr ⟨_, hj, rfl⟩
          rw [hfe, hcm.2, hr.1] at hmem
          simp at hmem
    · intro r i hw
      rw [C.walk_below r, hnone] at hw; simp at hw
    · intro q
      rw [C.view' q, hnone, e2, hN]
      simp only [hfe, hcm.2]
      unfold remove
      rw [hch, R.view]
      simp
  unfold delete
  simp only [hs, if_pos hk, hreb, if_true]
  cases e with
  | leaf m v =>
    refine ⟨_, rfl, fin _ (fun _ => False) (setNd_same _ _ _) (fun k hk _ => setNd_ne _ _ hk) ?_ (fun _ _ _ h => h.elim)⟩
    intro k
    by_cases hk : k = c
    · subst hk; rw [setNd_same]
    · rw [setNd_ne _ _ hk]
  | node j =>
    simp only
    have hwj : walk h (.node root) (p ++ [n]) = some (.node j) := by
      rw [walk_append, hc]; simp [walk, he]
    have hjc : j ≠ c := by
      rintro rfl
      have := uniq R.inv _ _ _ hwj hc
      simp at this
    have hbelow : ∀ q i, walk h (.node root) q = some (.node i) → Reaches h j i → ∃ r, q = p ++ n :: r := by
      intro q i hw hr
      obtain ⟨r, hr⟩ := reaches_path R.inv hwj hr
      exact ⟨r, by rw [uniq R.inv _ _ _ hw hr]; simp⟩
    have hnr : ¬ Reaches h j c := by
      intro hr
      obtain ⟨r, hr⟩ := hbelow p c hc hr
      have := congrArg List.length hr; simp at this
    generalize hg : setNd (setNd h c { h c with ents := (h c).ents.take k ++ (h c).ents.drop (k + 1), tree := t' }) j
      { setNd h c { h c with ents := (h c).ents.take k ++ (h c).ents.drop (k + 1), tree := t' } j with parent := none } = g
    have g1 : g c = { h c with ents := (h c).ents.take k ++ (h c).ents.drop (k + 1), tree := t' } := by
      rw [← hg, setNd_ne _ _ (Ne.symm hjc), setNd_same]
    have g2 : g j = { h j with parent := none } := by rw [← hg, setNd_same, setNd_ne _ _ hjc]
    have g3 : ∀ k, k ≠ c → k ≠ j → g k = h k := by
      intro k h1 h2; rw [← hg, setNd_ne _ _ h2, setNd_ne _ _ h1]
    have gsub : ∀ k x, x ∈ (g k).ents → x ∈ (h k).ents := by
      intro a x hx
      by_cases h1 : a = c
      · subst h1; rw [g1] at hx
        rcases List.mem_append.mp hx with h2 | h2
        · exact List.mem_of_mem_take h2
        · exact List.mem_of_mem_drop h2
      · by_cases h2 : a = j
        · subst h2; rw [g2] at hx; exact hx
        · rw [g3 a h1 h2] at hx; exact hx
    have P := purge_spec fuel g j
    refine ⟨_, rfl, fin _ (Reaches h j) ?_ ?_ ?_ hbelow⟩
    · rw [P.1 c (fun hr => hnr (hr.mono gsub)), g1]
    · intro a h1 h2
      rw [P.1 a (fun hr => h2 (hr.mono gsub)), g3 a h1 (by rintro rfl; exact h2 .refl)]
    · intro a
      rw [P.2.1]
      by_cases h1 : a = c
      · subst h1; rw [g1]
      · by_cases h2 : a = j
        · subst h2; rw [g2]
        · rw [g3 a h1 h2]

end Verif.ConfigDb
