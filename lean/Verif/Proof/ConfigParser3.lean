import Verif.Proof.ConfigParser2
/-! The tree that results from a document with distinct names. -/
namespace Verif.Config
open Verif.Parser Verif.Spec.ConfigDoc
open Verif.ConfigDb (Op Out St Name)
open Verif.Spec.ConfigDb (Db Item allowed allAllowed)

variable {B : Type} {conv : Conv B}

/-- As `Added`, for a statement. -/
def Added1 (conv : Conv B) (item : List Name → Option (Item (Leaf B))) (p : List Name) (s : Stmt)
    (item' : List Name → Option (Item (Leaf B))) : Prop :=
  item' p = some (.node (Spec.ConfigDb.children item p ++ [s.name])) ∧
  (∀ n r, item' (p ++ n :: r) = if n = s.name then s.item conv r else item (p ++ n :: r)) ∧
  ∀ q, ¬ p <+: q → item' q = item q

theorem splitDots_single (m : Name) (hm : m.contains '.' = false) : Spec.ConfigDb.splitDots m = [m] := by
  induction m with
  | nil => rfl
  | cons x m ih =>
    rw [List.contains_cons, Bool.or_eq_false_iff] at hm
    rw [Spec.ConfigDb.splitDots, if_neg (by intro h; simp [h] at hm), ih hm.2]

theorem nameOk_split {n : Name} (h : nameOk n = true) : n ≠ [] ∧ Spec.ConfigDb.names n = [n] := by
  unfold nameOk at h
  simp only [Bool.and_eq_true, Bool.not_eq_true', decide_eq_true_eq] at h
  refine ⟨h.1.1.1, ?_⟩
  unfold Spec.ConfigDb.names
  rw [if_neg h.1.1.1, splitDots_single n h.2]

mutual
theorem item_of_names : ∀ (d : Stmts) (n : Name) (r : List Name), n ∉ d.names → d.item conv n r = none
  | .one s, n, r, h => by
    rw [Stmts.item, if_neg (by intro e; apply h; simp [Stmts.names, e])]
  | .more s ss, n, r, h => by
    rw [Stmts.item, if_neg (by intro e; apply h; simp [Stmts.names, e])]
    exact item_of_names ss n r (by intro e; apply h; simp [Stmts.names, e])
end

private theorem not_prefix_ne {p q : List Name} (h : ¬ p <+: q) : q ≠ p := by
  rintro rfl; exact h (List.prefix_refl _)

private theorem ext_ne (p : List Name) (n : Name) (r : List Name) : p ++ n :: r ≠ p := by
  intro h; have := congrArg List.length h; simp at this

theorem added_leaf (item : List Name → Option (Item (Leaf B))) (p : List Name) (n : Name) (cast : Option (List Char))
    (d : Data) (v : Leaf B) (hv : d.value conv cast = some v) (hn : n ∉ Spec.ConfigDb.children item p) :
    Added1 conv item p (.leaf n cast d) (Spec.ConfigDb.setLeaf item p n v) := by
  refine ⟨?_, ?_, ?_⟩
  · unfold Spec.ConfigDb.setLeaf
    rw [if_neg (fun h => ext_ne p n [] h.symm), if_neg, if_pos rfl, if_neg hn]
    · rfl
    · intro h
      have := (List.isPrefixOf_iff_prefix.mp h).length_le
      simp at this
      omega
  · intro m r
    unfold Spec.ConfigDb.setLeaf
    simp only [Stmt.name, Stmt.item, hv, Option.map_some]
    by_cases hm : m = n
    · subst hm
      rw [if_pos rfl]
      by_cases hr : r = []
      · subst hr; simp
      · rw [if_neg (by intro h; apply hr; simpa using h), if_pos (List.isPrefixOf_iff_prefix.mpr ⟨r, by simp⟩), if_neg hr]
    · rw [if_neg hm, if_neg (by intro h; apply hm; have := List.append_cancel_left h; simp at this; exact this.1), if_neg, if_neg (ext_ne p m r)]
      intro h
      obtain ⟨t, ht⟩ := List.isPrefixOf_iff_prefix.mp h
      rw [List.append_assoc] at ht
      have := List.append_cancel_left ht
      simp at this
      exact hm this.1.symm
  · intro q hq
    unfold Spec.ConfigDb.setLeaf
    rw [if_neg (by rintro rfl; exact hq (List.prefix_append _ _)), if_neg, if_neg (not_prefix_ne hq)]
    intro h
    exact hq ((List.prefix_append _ _).trans (List.isPrefixOf_iff_prefix.mp h))

theorem added_block (item item' : List Name → Option (Item (Leaf B))) (p : List Name) (n : Name) (b : Stmts)
    (hbelow : ∀ r, item (p ++ n :: r) = none)
    (h : Added conv (Spec.ConfigDb.addNode item p n) (p ++ [n]) b item') : Added1 conv item p (.block n b) item' := by
  obtain ⟨h1, h2, h3⟩ := h
  have e1 : Spec.ConfigDb.children (Spec.ConfigDb.addNode item p n) (p ++ [n]) = [] := by
    unfold Spec.ConfigDb.children Spec.ConfigDb.addNode
    rw [if_pos rfl]
  have np : ¬ p ++ [n] <+: p := by intro h; have := h.length_le; simp at this; omega
  refine ⟨?_, ?_, ?_⟩
  · rw [h3 p np]
    unfold Spec.ConfigDb.addNode
    rw [if_neg (fun h => ext_ne p n [] h.symm), if_pos rfl]
    rfl
  · intro m r
    show _ = if m = n then _ else _
    by_cases hm : m = n
    · subst hm
      rw [if_pos rfl]
      cases r with
      | nil => rw [h1, e1]; rfl
      | cons a r =>
        have := h2 a r
        rw [List.append_assoc] at this
        rw [Stmt.item]
        rw [show p ++ m :: a :: r = p ++ ([m] ++ a :: r) from rfl, this]
        split
        · rfl
        · rename_i ha
          rw [item_of_names b a r ha]
          unfold Spec.ConfigDb.addNode
          rw [if_neg (by simp), if_neg (by simp)]
          exact hbelow (a :: r)
    · rw [if_neg hm, h3]
      · unfold Spec.ConfigDb.addNode
        rw [if_neg (by intro h; apply hm; have := List.append_cancel_left h; simp at this; exact this.1), if_neg (ext_ne p m r)]
      · rintro ⟨t, ht⟩
        rw [List.append_assoc] at ht
        have := List.append_cancel_left ht
        simp at this
        exact hm this.1.symm
  · intro q hq
    rw [h3 q (fun h => hq ((List.prefix_append _ _).trans h))]
    unfold Spec.ConfigDb.addNode
    rw [if_neg (by rintro rfl; exact hq (List.prefix_append _ _)), if_neg (not_prefix_ne hq)]

mutual
theorem apply_stmt (s : Stmt) : ∀ (db : Db (Leaf B)) (ch : List Name), s.ok conv = true → db.item db.cur = some (.node ch) →
    s.name ∉ ch → (∀ r, db.item (db.cur ++ s.name :: r) = none) →
    ∃ item', s.apply conv db = some ⟨item', db.cur⟩ ∧ Added1 conv db.item db.cur s item' := by
  intro db ch hok hcur hn hbelow
  have hch : Spec.ConfigDb.children db.item db.cur = ch := by unfold Spec.ConfigDb.children; rw [hcur]
  match s with
  | .leaf n cast d =>
    rw [Stmt.ok, Bool.and_eq_true, Option.isSome_iff_exists] at hok
    obtain ⟨hk, v, hv⟩ := hok
    rw [Stmt.apply, hv, Option.bind_some]
    have hne := (nameOk_split hk).1
    refine ⟨Spec.ConfigDb.setLeaf db.item db.cur n v, ?_, added_leaf _ _ _ _ _ _ hv (by rw [hch]; exact hn)⟩
    simp only [Spec.ConfigDb.step, if_pos hne, must]
  | .block n b =>
    rw [Stmt.ok, Bool.and_eq_true] at hok
    obtain ⟨hk, hb⟩ := hok
    obtain ⟨hne, hsp⟩ := nameOk_split hk
    have hnone : db.item (db.cur ++ [n]) = none := hbelow []
    have e1 : must (Spec.ConfigDb.step db (.createRelative n)) =
        some ⟨Spec.ConfigDb.addNode db.item db.cur n, db.cur ++ [n]⟩ := by
      simp only [Spec.ConfigDb.step, Spec.ConfigDb.create, hsp, hnone]
      rw [if_pos ⟨by simp, trivial⟩]
      simp only [must, Spec.ConfigDb.addPath, hnone, Option.isSome_none, Bool.false_eq_true, if_false]
    obtain ⟨item', h1, h2⟩ := apply_stmts b ⟨Spec.ConfigDb.addNode db.item db.cur n, db.cur ++ [n]⟩ [] hb (by
        show Spec.ConfigDb.addNode db.item db.cur n (db.cur ++ [n]) = _
        unfold Spec.ConfigDb.addNode; rw [if_pos rfl]) (by simp) (by
        intro m _ r
        show Spec.ConfigDb.addNode db.item db.cur n (db.cur ++ [n] ++ m :: r) = _
        unfold Spec.ConfigDb.addNode
        rw [if_neg (ext_ne _ m r), if_neg (by rw [List.append_assoc]; exact ext_ne _ n _), List.append_assoc]
        exact hbelow (m :: r))
    refine ⟨item', ?_, added_block _ _ _ _ _ hbelow h2⟩
    rw [Stmt.apply, e1, Option.bind_some, h1, Option.bind_some]
    simp [Spec.ConfigDb.step, must]

theorem apply_stmts (d : Stmts) : ∀ (db : Db (Leaf B)) (ch : List Name), d.ok conv = true → db.item db.cur = some (.node ch) →
    (∀ n ∈ d.names, n ∉ ch) → (∀ n ∈ d.names, ∀ r, db.item (db.cur ++ n :: r) = none) →
    ∃ item', d.apply conv db = some ⟨item', db.cur⟩ ∧ Added conv db.item db.cur d item' := by
  intro db ch hok hcur hn hbelow
  have hch : Spec.ConfigDb.children db.item db.cur = ch := by unfold Spec.ConfigDb.children; rw [hcur]
  match d with
  | .one s =>
    rw [Stmts.ok] at hok
    obtain ⟨item', h1, h2, h3, h4⟩ := apply_stmt s db ch hok hcur (hn _ (by simp [Stmts.names]))
      (hbelow _ (by simp [Stmts.names]))
    refine ⟨item', by rw [Stmts.apply]; exact h1, h2, ?_, h4⟩
    intro n r
    rw [h3]
    simp only [Stmts.names, List.mem_singleton, Stmts.item]
    by_cases h : n = s.name
    · rw [if_pos h, if_pos h, if_pos h.symm]
    · rw [if_neg h, if_neg h]
  | .more s ss =>
    rw [Stmts.ok, Bool.and_eq_true, Bool.and_eq_true, decide_eq_true_eq] at hok
    obtain ⟨⟨hs, hss⟩, hd⟩ := hok
    obtain ⟨item1, h1, h2, h3, h4⟩ := apply_stmt s db ch hs hcur (hn _ (by simp [Stmts.names]))
      (hbelow _ (by simp [Stmts.names]))
    rw [hch] at h2
    obtain ⟨item', g1, g2, g3, g4⟩ := apply_stmts ss ⟨item1, db.cur⟩ (ch ++ [s.name]) hss h2 (by
        intro n hn' hmem
        rw [List.mem_append, List.mem_singleton] at hmem
        rcases hmem with hmem | hmem
        · exact hn n (by simp [Stmts.names, hn']) hmem
        · subst hmem; exact hd hn') (by
        intro n hn' r
        show item1 (db.cur ++ n :: r) = none
        rw [h3, if_neg (by rintro rfl; exact hd hn')]
        exact hbelow n (by simp [Stmts.names, hn']) r)
    refine ⟨item', by rw [Stmts.apply, h1, Option.bind_some, g1], ?_, ?_, ?_⟩
    · rw [g1 |> fun _ => g2, hch]
      have : Spec.ConfigDb.children item1 db.cur = ch ++ [s.name] := by
        unfold Spec.ConfigDb.children; rw [h2]
      show some (Item.node (Spec.ConfigDb.children item1 db.cur ++ ss.names)) = _
      rw [this, List.append_assoc]; rfl
    · intro n r
      have := g3 n r
      simp only at this
      rw [this, h3]
      simp only [Stmts.names, List.mem_cons, Stmts.item]
      by_cases h : n = s.name
      · rw [if_neg (by rw [h]; exact hd), if_pos h, if_pos (.inl h), if_pos h.symm]
      · by_cases h' : n ∈ ss.names
        · rw [if_pos h', if_pos (.inr h'), if_neg (fun e => h e.symm)]
        · rw [if_neg h', if_neg h, if_neg (by intro h''; rcases h'' with h'' | h''; exact h h''; exact h' h'')]
    · intro q hq
      rw [g4 q hq]
      exact h4 q hq
end

theorem block_names_of_ok : ∀ d : Stmts, d.ok conv = true → d.blockNames = true :=
  Stmts.rec (motive_1 := fun s => s.ok conv = true → s.blockNames = true)
    (motive_2 := fun d => d.ok conv = true → d.blockNames = true)
    (fun _ _ _ _ => by rw [Stmt.blockNames])
    (fun n b ih h => by
      rw [Stmt.ok, Bool.and_eq_true] at h
      have h1 := h.1
      unfold nameOk at h1
      rw [Stmt.blockNames, ih h.2]
      unfold simpleName
      simp only [Bool.and_eq_true, Bool.not_eq_true', decide_eq_true_eq] at h1 ⊢
      exact ⟨⟨⟨h1.1.1.2, h1.1.2⟩, h1.2⟩, trivial⟩)
    (fun s ih h => by rw [Stmts.ok] at h; rw [Stmts.blockNames]; exact ih h)
    (fun s ss ih1 ih2 h => by
      rw [Stmts.ok, Bool.and_eq_true, Bool.and_eq_true] at h
      rw [Stmts.blockNames, ih1 h.1.1, ih2 h.1.2]; rfl)

/-- On a new database. -/
theorem apply_empty (d : Stmts) (h : d.ok conv = true) :
    d.apply conv Spec.ConfigDb.empty = some ⟨d.tree conv, []⟩ := by
  obtain ⟨item', h1, h2, h3, h4⟩ := apply_stmts (conv := conv) d Spec.ConfigDb.empty [] h rfl (by simp) (by
    intro n _ r; rfl)
  rw [h1]
  congr 2
  funext q
  cases q with
  | nil => exact h2
  | cons n r =>
    have := h3 n r
    simp only [Spec.ConfigDb.empty, List.nil_append] at this
    rw [this]
    simp only [Stmts.tree]
    split
    · rfl
    · rename_i hn
      rw [item_of_names d n r hn]; rfl

end Verif.Config
