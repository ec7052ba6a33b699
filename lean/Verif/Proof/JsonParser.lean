import Verif.Model.JsonParser
import Verif.Spec.JsonDoc
import Verif.Proof.ConfigParser2
/-! Running the parser of the JSON language on a document. -/
set_option linter.unusedSimpArgs false
namespace Verif.Json
open Verif.Parser Verif.Config Verif.Spec.ConfigDoc Verif.Spec.JsonDoc
open Verif.ConfigDb (Op Out St Name)
open Verif.Spec.ConfigDb (Db Item allowed allAllowed)

variable {B : Type} {conv : Conv B}

/-! ## The counters of the lists -/

/-- The tree of the counters inside the list `n`, at the counter `k`. -/
def within (item : List Name → Option (Item Nat)) (p : List Name) (n : Name) (k : Nat) : List Name → Option (Item Nat) :=
  fun q =>
    if q = p ++ [n] then some (.node [idxName])
    else if q = p ++ [n, idxName] then some (.leaf k)
    else if q = p then some (.node (Spec.ConfigDb.children item p ++ [n]))
    else item q

/-- What is known of the tree of the counters at its current node. -/
def VecOk (inside : Bool) (v : Db Nat) : Prop :=
  v.item v.cur = some (.node (if inside then [idxName] else [])) ∧
  ∀ m r, (inside = true → m ≠ idxName) → v.item (v.cur ++ m :: r) = none

theorem self_ne (p : List Name) (n : Name) (r : List Name) : p ++ n :: r ≠ p := by
  intro h
  have := congrArg List.length h
  simp at this

theorem within_new {item : List Name → Option (Item Nat)} {p : List Name} {n : Name} {ch : List Name}
    (hp : item p = some (.node ch)) (hb : ∀ r, item (p ++ n :: r) = none) :
    Spec.ConfigDb.setLeaf (Spec.ConfigDb.addNode item p n) (p ++ [n]) idxName 0 = within item p n 0 := by
  have hch : Spec.ConfigDb.children (Spec.ConfigDb.addNode item p n) (p ++ [n]) = [] := by
    unfold Spec.ConfigDb.children Spec.ConfigDb.addNode
    rw [if_pos rfl]
  funext q
  unfold Spec.ConfigDb.setLeaf within
  rw [hch]
  simp only [List.append_assoc, List.cons_append, List.nil_append, List.not_mem_nil, if_false]
  by_cases h1 : q = p ++ [n, idxName]
  · rw [if_pos h1, if_neg (by rw [h1]; intro h; have := congrArg List.length h; simp at this), if_pos h1]
  rw [if_neg h1]
  by_cases h2 : q = p ++ [n]
  · subst h2
    rw [if_neg (by
      rw [List.isPrefixOf_iff_prefix]
      intro h; have := h.length_le; simp at this), if_pos rfl, if_pos rfl]
  simp only [if_neg h2, if_neg h1]
  by_cases h3 : (p ++ [n, idxName]).isPrefixOf q = true
  · rw [if_pos h3]
    rw [List.isPrefixOf_iff_prefix] at h3
    obtain ⟨r, rfl⟩ := h3
    rw [List.append_assoc]
    simp only [List.cons_append, List.nil_append]
    rw [if_neg (self_ne _ _ _), hb]
  rw [if_neg h3]
  unfold Spec.ConfigDb.addNode
  rw [if_neg h2]

theorem within_next {item : List Name → Option (Item Nat)} {p : List Name} {n : Name} {k v : Nat}
    (hb : ∀ r, item (p ++ n :: r) = none) :
    Spec.ConfigDb.setLeaf (within item p n k) (p ++ [n]) idxName v = within item p n v := by
  have hch : Spec.ConfigDb.children (within item p n k) (p ++ [n]) = [idxName] := by
    unfold Spec.ConfigDb.children within
    rw [if_pos rfl]
  funext q
  unfold Spec.ConfigDb.setLeaf
  rw [hch]
  simp only [List.append_assoc, List.cons_append, List.nil_append, List.mem_singleton, if_true]
  unfold within
  by_cases h1 : q = p ++ [n, idxName]
  · rw [if_pos h1, if_neg (by rw [h1]; intro h; have := congrArg List.length h; simp at this), if_pos h1]
  rw [if_neg h1]
  by_cases h2 : q = p ++ [n]
  · subst h2
    rw [if_neg (by
      rw [List.isPrefixOf_iff_prefix]
      intro h; have := h.length_le; simp at this), if_pos rfl, if_pos rfl]
  rw [if_neg h2, if_neg h1, if_neg h2, if_neg h1, if_neg h2]
  by_cases h3 : (p ++ [n, idxName]).isPrefixOf q = true
  · rw [if_pos h3]
    rw [List.isPrefixOf_iff_prefix] at h3
    obtain ⟨r, rfl⟩ := h3
    rw [List.append_assoc]
    simp only [List.cons_append, List.nil_append]
    rw [if_neg (self_ne _ _ _), hb]
  rw [if_neg h3]

theorem within_end {item : List Name → Option (Item Nat)} {p : List Name} {n : Name} {k : Nat} {ch : List Name}
    (hp : item p = some (.node ch)) (hn : n ∉ ch) (hb : ∀ r, item (p ++ n :: r) = none) :
    Spec.ConfigDb.remove (within item p n k) p n = item := by
  have hch0 : Spec.ConfigDb.children item p = ch := by unfold Spec.ConfigDb.children; rw [hp]
  have hch : Spec.ConfigDb.children (within item p n k) p = ch ++ [n] := by
    unfold Spec.ConfigDb.children within
    rw [if_neg (fun h => self_ne p n [] h.symm), if_neg (fun h => self_ne p n [idxName] h.symm), if_pos rfl, ← hch0]
  funext q
  unfold Spec.ConfigDb.remove
  rw [hch]
  by_cases h1 : (p ++ [n]).isPrefixOf q = true
  · rw [if_pos h1]
    rw [List.isPrefixOf_iff_prefix] at h1
    obtain ⟨r, rfl⟩ := h1
    rw [List.append_assoc]
    exact (hb r).symm
  rw [if_neg h1]
  by_cases h2 : q = p
  · rw [if_pos h2, h2, hp]
    have : (ch ++ [n]).filter (fun x => decide (x ≠ n)) = ch := by
      rw [List.filter_append, List.filter_eq_self.mpr (by
        intro a ha; simp only [decide_eq_true_eq]; rintro rfl; exact hn ha)]
      simp
    rw [this]
  rw [if_neg h2]
  unfold within
  rw [if_neg (by rintro rfl; exact h1 (by rw [List.isPrefixOf_iff_prefix]; exact List.prefix_refl _)),
    if_neg (by rintro rfl; exact h1 (by rw [List.isPrefixOf_iff_prefix]; exact ⟨[idxName], by simp⟩)), if_neg h2]

theorem within_ok {item : List Name → Option (Item Nat)} {p : List Name} {n : Name} {k : Nat}
    (hb : ∀ r, item (p ++ n :: r) = none) : VecOk true ⟨within item p n k, p ++ [n]⟩ := by
  refine ⟨?_, fun m r hm => ?_⟩
  · show within item p n k (p ++ [n]) = _
    unfold within; rw [if_pos rfl]; rfl
  · show within item p n k (p ++ [n] ++ m :: r) = _
    unfold within
    rw [List.append_assoc]
    simp only [List.cons_append, List.nil_append]
    rw [if_neg (by intro h; have := List.append_cancel_left h; simp at this),
      if_neg (by intro h; have := List.append_cancel_left h; simp at this; exact hm rfl this.1),
      if_neg (self_ne _ _ _), hb]

theorem split_simple (m : Name) (hm : m.contains '.' = false) : Spec.ConfigDb.splitDots m = [m] := by
  induction m with
  | nil => rfl
  | cons x m ih =>
    rw [List.contains_cons, Bool.or_eq_false_iff] at hm
    rw [Spec.ConfigDb.splitDots, if_neg (by intro h; simp [h] at hm), ih hm.2]

theorem names_simple {n : Name} (h : nameOk n = true) : Spec.ConfigDb.names n = [n] := by
  unfold nameOk at h
  simp only [Bool.and_eq_true, Bool.not_eq_true', decide_eq_true_eq] at h
  unfold Spec.ConfigDb.names
  rw [if_neg h.1.1.1, split_simple n h.2]

theorem simple_of_ok {n : Name} (h : nameOk n = true) : simpleName n = true := by
  unfold nameOk at h
  unfold simpleName
  simp only [Bool.and_eq_true, Bool.not_eq_true', decide_eq_true_eq] at h ⊢
  exact ⟨⟨h.1.1.2, h.1.2⟩, h.2⟩

theorem create_allowed' {V : Type} {db : Db V} (n : Name) (h : simpleName n = true) :
    allowed db (.createRelative n) = true := by
  unfold simpleName at h
  simp only [Bool.and_eq_true, Bool.not_eq_true', decide_eq_true_eq] at h
  obtain ⟨⟨h1, h2⟩, h3⟩ := h
  have hsp := split_simple n h3
  simp only [allowed, Spec.ConfigDb.pathOk, h1, h2, decide_true, Bool.not_false, Bool.and_true, Bool.true_and,
    Bool.and_eq_true, Bool.or_eq_true, Bool.not_eq_true']
  constructor
  · rw [hsp]
    by_cases hn : n = []
    · left; simp [hn]
    · right; simp [hn]
  · unfold Spec.ConfigDb.names Spec.ConfigDb.throughLeaf
    split
    · rfl
    · rw [hsp]; rfl

/-- A list begins. -/
theorem vec_begin {v : St Nat} {item : List Name → Option (Item Nat)} {p : List Name} {n : Name} {inside : Bool}
    (h : Hist v ⟨item, p⟩) (hv : VecOk inside ⟨item, p⟩) (hn : nameOk n = true) (hi : inside = true → n ≠ idxName)
    (c : Cfg B) (t : Tok) (ht : t.data = n) :
    ∃ v', createNodeV ⟨c, v⟩ t = some (⟨c, v'⟩, false) ∧ Hist v' ⟨within item p n 0, p ++ [n]⟩ := by
  obtain ⟨v1, h1, h2⟩ := hist_step h (.createRelative n) (create_allowed' n (simple_of_ok hn))
  have hb : ∀ r, item (p ++ n :: r) = none := fun r => hv.2 n r hi
  have e : Spec.ConfigDb.step ⟨item, p⟩ (.createRelative n) =
      (.flag true, ⟨Spec.ConfigDb.addNode item p n, p ++ [n]⟩) := by
    simp only [Spec.ConfigDb.step, Spec.ConfigDb.create, names_simple hn]
    rw [if_pos ⟨by simp, hb []⟩]
    simp only [Spec.ConfigDb.addPath, hb [], Option.isSome_none, Bool.false_eq_true, if_false]
  rw [e] at h1 h2
  obtain ⟨v2, h3, h4⟩ := hist_step h2 (.write idxName 0) rfl
  have e2 : Spec.ConfigDb.step ⟨Spec.ConfigDb.addNode item p n, p ++ [n]⟩ (.write idxName 0) =
      (.flag true, ⟨within item p n 0, p ++ [n]⟩) := by
    simp only [Spec.ConfigDb.step]
    rw [if_pos (by decide), within_new hv.1 hb]
  rw [e2] at h3 h4
  refine ⟨v2, ?_, h4⟩
  unfold createNodeV
  simp only [ht, h1, h3]
  rfl

/-- A block of a list begins. -/
theorem vec_element {v : St Nat} {item : List Name → Option (Item Nat)} {p : List Name} {n : Name} {k : Nat}
    (h : Hist v ⟨within item p n k, p ++ [n]⟩) (hb : ∀ r, item (p ++ n :: r) = none) (c c' : Cfg B) (e : Bool)
    (hc : call c (.createRelative (blockName n k)) = some (c', e)) :
    ∃ v', createNodeVE ⟨c, v⟩ = some (⟨c', v'⟩, e) ∧
      Hist v' ⟨within item p n ((k + 1) % 2 ^ 32), p ++ [n]⟩ := by
  obtain ⟨v1, h1, h2⟩ := hist_step h (.read idxName) rfl
  have e1 : Spec.ConfigDb.step ⟨within item p n k, p ++ [n]⟩ (.read idxName) =
      (.value (some k), ⟨within item p n k, p ++ [n]⟩) := by
    have : within item p n k (p ++ [n] ++ [idxName]) = some (.leaf k) := by
      unfold within
      rw [List.append_assoc]
      simp only [List.cons_append, List.nil_append]
      rw [if_neg (by intro h; have := List.append_cancel_left h; simp at this), if_pos trivial]
    simp only [Spec.ConfigDb.step, this]
  rw [e1] at h1 h2
  obtain ⟨v2, h3, h4⟩ := hist_step h2 .getName rfl
  have e2 : Spec.ConfigDb.step ⟨within item p n k, p ++ [n]⟩ .getName =
      (.name (some n), ⟨within item p n k, p ++ [n]⟩) := by
    simp [Spec.ConfigDb.step]
  rw [e2] at h3 h4
  obtain ⟨v3, h5, h6⟩ := hist_step h4 (.write idxName ((k + 1) % 2 ^ 32)) rfl
  have e3 : Spec.ConfigDb.step ⟨within item p n k, p ++ [n]⟩ (.write idxName ((k + 1) % 2 ^ 32)) =
      (.flag true, ⟨within item p n ((k + 1) % 2 ^ 32), p ++ [n]⟩) := by
    simp only [Spec.ConfigDb.step]
    rw [if_pos (by decide), within_next hb]
  rw [e3] at h5 h6
  refine ⟨v3, ?_, h6⟩
  have hname : printName n k = blockName n k := by unfold printName blockName; simp
  unfold createNodeVE
  simp only [h1, h3, hname, hc, h5]
  cases e <;> rfl

/-- A list ends. -/
theorem vec_end {v : St Nat} {item : List Name → Option (Item Nat)} {p : List Name} {n : Name} {k : Nat}
    {ch : List Name} (h : Hist v ⟨within item p n k, p ++ [n]⟩) (hp : item p = some (.node ch)) (hn : n ∉ ch)
    (hb : ∀ r, item (p ++ n :: r) = none) (c : Cfg B) :
    ∃ v', endVectorB ⟨c, v⟩ = some (⟨c, v'⟩, false) ∧ Hist v' ⟨item, p⟩ := by
  obtain ⟨v1, h1, h2⟩ := hist_step h .getName rfl
  have e1 : Spec.ConfigDb.step ⟨within item p n k, p ++ [n]⟩ .getName =
      (.name (some n), ⟨within item p n k, p ++ [n]⟩) := by
    simp [Spec.ConfigDb.step]
  rw [e1] at h1 h2
  obtain ⟨v2, h3, h4⟩ := hist_step h2 (.moveToAncestor 1) rfl
  have e2 : Spec.ConfigDb.step ⟨within item p n k, p ++ [n]⟩ (.moveToAncestor 1) =
      (.flag true, ⟨within item p n k, p⟩) := by
    simp [Spec.ConfigDb.step]
  rw [e2] at h3 h4
  obtain ⟨v3, h5, h6⟩ := hist_step h4 (.delete n) rfl
  have e3 : Spec.ConfigDb.step ⟨within item p n k, p⟩ (.delete n) = (.flag true, ⟨item, p⟩) := by
    have : (within item p n k (p ++ [n])).isSome = true := by unfold within; rw [if_pos rfl]; rfl
    simp only [Spec.ConfigDb.step]
    rw [if_pos this, within_end hp hn hb]
  rw [e3] at h5 h6
  refine ⟨v3, ?_, h6⟩
  unfold endVectorB
  simp only [h1, h3, h5]
  rfl

end Verif.Json
