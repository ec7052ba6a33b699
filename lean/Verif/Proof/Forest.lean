import Verif.Spec.Forest
import Verif.Proof.ConfigParser2
/-! ## Trees reached by calls, as forests -/
set_option linter.unusedSimpArgs false
namespace Verif.Spec.ConfigDb
open Verif.ConfigDb (Name Op St)
open Verif.Config (Hist hist_step hist_run)

variable {V : Type}

def Forest.size : Forest V → Nat
  | .nil => 0
  | .leaf _ _ r => r.size + 1
  | .node _ s r => s.size + r.size + 1

theorem at_node_ne {n m : Name} {S r : Forest V} (h : n ≠ m) (p : List Name) : (Forest.node n S r).at m p = r.at m p := by
  cases p <;> simp [Forest.at, h]

theorem at_none {F : Forest V} {n : Name} (h : n ∉ F.names) (r : List Name) : F.at n r = none := by
  induction F with
  | nil => rfl
  | leaf m v rest ih =>
    simp only [Forest.names, List.mem_cons, not_or] at h
    rw [Forest.at, if_neg (fun e => h.1 e.symm), ih h.2]
  | node m s rest _ ih =>
    simp only [Forest.names, List.mem_cons, not_or] at h
    rw [at_node_ne (fun e => h.1 e.symm), ih h.2]

theorem at_some {F : Forest V} {n : Name} (h : n ∈ F.names) : (F.at n []).isSome = true := by
  induction F with
  | nil => cases h
  | leaf m v rest ih =>
    rw [Forest.at]
    by_cases e : m = n
    · rw [if_pos e, if_pos rfl]; rfl
    · rw [if_neg e]
      exact ih (by simpa [Forest.names, Ne.symm e] using h)
  | node m s rest _ ih =>
    rw [Forest.at]
    by_cases e : m = n
    · rw [if_pos e]; rfl
    · rw [if_neg e]
      exact ih (by simpa [Forest.names, Ne.symm e] using h)

/-- The part `F` of the children of the node `p`, from the child number `i`. -/
structure Part (item : List Name → Option (Item V)) (p : List Name) (i : Nat) (F : Forest V) : Prop where
  names : (children item p).drop i = F.names
  lt : i ≤ (children item p).length
  at' : ∀ n ∈ F.names, ∀ r, item (p ++ n :: r) = F.at n r

theorem part_of_below {item : List Name → Option (Item V)} {p : List Name} {F : Forest V} (h : Below item p F) :
    Part item p 0 F := by
  have e : children item p = F.names := by
    have := h []
    rw [List.append_nil] at this
    rw [children, this]; rfl
  exact ⟨by rw [e]; rfl, Nat.zero_le _, fun n _ r => h (n :: r)⟩

theorem part_nil {item : List Name → Option (Item V)} {p : List Name} {i : Nat} (h : Part item p i .nil) :
    i = (children item p).length := by
  have := congrArg List.length h.names
  simp only [List.length_drop, Forest.names, List.length_nil] at this
  have := h.lt
  omega

theorem part_next {item : List Name → Option (Item V)} {p : List Name} {i : Nat} {n : Name} {F G : Forest V}
    (h : Part item p i F) (hF : F.names = n :: G.names) (ha : ∀ m, m ≠ n → ∀ r, F.at m r = G.at m r) (hn : n ∉ G.names) :
    i < (children item p).length ∧ (children item p)[i]? = some n ∧ Part item p (i + 1) G := by
  have h1 := h.names
  rw [hF] at h1
  have hi : i < (children item p).length := by
    have := congrArg List.length h1
    simp only [List.length_drop, List.length_cons] at this
    omega
  have hget : (children item p)[i]? = some n := by
    have := congrArg List.head? h1
    rwa [List.head?_drop] at this
  refine ⟨hi, hget, ?_, by omega, fun m hm r => ?_⟩
  · have := congrArg List.tail h1
    rwa [List.tail_drop] at this
  · rw [h.at' m (by rw [hF]; simp [hm]) r]
    exact ha m (fun e => hn (e ▸ hm)) r

theorem part_leaf {item : List Name → Option (Item V)} {p : List Name} {i : Nat} {n : Name} {v : V} {G : Forest V}
    (h : Part item p i (.leaf n v G)) (hn : n ∉ G.names) :
    i < (children item p).length ∧ (children item p)[i]? = some n ∧ Part item p (i + 1) G ∧
      item (p ++ [n]) = some (.leaf v) := by
  obtain ⟨h1, h2, h3⟩ := part_next h rfl (fun m hm r => by rw [Forest.at, if_neg (Ne.symm hm)]) hn
  refine ⟨h1, h2, h3, ?_⟩
  rw [h.at' n (by simp [Forest.names]) [], Forest.at, if_pos rfl, if_pos rfl]

theorem part_node {item : List Name → Option (Item V)} {p : List Name} {i : Nat} {n : Name} {S G : Forest V}
    (h : Part item p i (.node n S G)) (hn : n ∉ G.names) :
    i < (children item p).length ∧ (children item p)[i]? = some n ∧ Part item p (i + 1) G ∧
      item (p ++ [n]) = some (.node S.names) ∧ Part item (p ++ [n]) 0 S := by
  obtain ⟨h1, h2, h3⟩ := part_next h rfl (fun m hm r => at_node_ne (Ne.symm hm) r) hn
  have e : item (p ++ [n]) = some (.node S.names) := by
    rw [h.at' n (by simp [Forest.names]) [], Forest.at, if_pos rfl]
  refine ⟨h1, h2, h3, e, ?_, Nat.zero_le _, fun m hm r => ?_⟩
  · rw [children, e]; rfl
  · rw [List.append_assoc]
    rw [show [n] ++ m :: r = n :: m :: r from rfl, h.at' n (by simp [Forest.names]) (m :: r), Forest.at, if_pos rfl]

/-! ### Calls at a node -/

theorem names_one {n : Name} (h : n ≠ []) (hd : '.' ∉ n) : Spec.ConfigDb.names n = [n] := by
  rw [Spec.ConfigDb.names, if_neg h]
  clear h
  induction n with
  | nil => rfl
  | cons c n ih =>
    have hc : c ≠ '.' := fun e => hd (by simp [e])
    rw [splitDots, if_neg hc, ih (fun h => hd (by simp [h]))]

theorem splitDots_one {n : Name} (hd : '.' ∉ n) : splitDots n = [n] := by
  induction n with
  | nil => rfl
  | cons c n ih =>
    have hc : c ≠ '.' := fun e => hd (by simp [e])
    rw [splitDots, if_neg hc, ih (fun h => hd (by simp [h]))]

variable {s : St V} {db : Db V}

theorem hist_childName (h : Hist s db) {i : Nat} {n : Name} (hi : (children db.item db.cur)[i]? = some n) :
    ∃ s', Verif.ConfigDb.step s (.getChildName i) = some (.name (some n), s') ∧ Hist s' db := by
  obtain ⟨s', h1, h2⟩ := hist_step h (.getChildName i) rfl
  refine ⟨s', ?_, h2⟩
  rw [h1]
  simp only [Spec.ConfigDb.step, hi]

theorem hist_size (h : Hist s db) :
    ∃ s', Verif.ConfigDb.step s .getNumberOfChildren = some (.size (children db.item db.cur).length, s') ∧ Hist s' db :=
  hist_step h .getNumberOfChildren rfl

theorem hist_read (h : Hist s db) (n : Name) :
    ∃ s', Verif.ConfigDb.step s (.read n) = some (.value (match db.item (db.cur ++ [n]) with
      | some (.leaf v) => some v
      | _ => none), s') ∧ Hist s' db := by
  obtain ⟨s', h1, h2⟩ := hist_step h (.read n) rfl
  refine ⟨s', ?_, h2⟩
  rw [h1]
  simp only [Spec.ConfigDb.step]
  cases db.item (db.cur ++ [n]) with
  | none => rfl
  | some x => cases x <;> rfl

/-- A name that is a path of one step. -/
def stepName (n : Name) : Bool := decide (n ≠ []) && decide (n.length < 2 ^ 32) && !n.contains '\x00' && !n.contains '.'

theorem stepName_path {n : Name} (h : stepName n = true) : pathOk n = true ∧ Spec.ConfigDb.names n = [n] := by
  simp only [stepName, Bool.and_eq_true, decide_eq_true_eq, Bool.not_eq_true', List.contains_eq_mem,
    decide_eq_false_iff_not] at h
  obtain ⟨⟨⟨a, b⟩, c⟩, d⟩ := h
  refine ⟨?_, names_one a d⟩
  simp [pathOk, b, c, splitDots_one d, a]

theorem hist_into (h : Hist s db) {n : Name} (hn : stepName n = true) {ch : List Name}
    (hi : db.item (db.cur ++ [n]) = some (.node ch)) :
    ∃ s', Verif.ConfigDb.step s (.moveRelative n) = some (.flag true, s') ∧ Hist s' { db with cur := db.cur ++ [n] } := by
  obtain ⟨a, b⟩ := stepName_path hn
  obtain ⟨s', h1, h2⟩ := hist_step h (.moveRelative n) a
  have e : Spec.ConfigDb.step db (.moveRelative n) = (.flag true, { db with cur := db.cur ++ [n] }) := by
    simp only [Spec.ConfigDb.step, moveTo, b]
    rw [if_pos ⟨by simp, by rw [hi]; rfl⟩]
  rw [e] at h1 h2
  exact ⟨s', h1, h2⟩

theorem hist_not_into (h : Hist s db) {n : Name} (hn : pathOk n = true) (hs : Spec.ConfigDb.names n = [n]) {v : V}
    (hi : db.item (db.cur ++ [n]) = some (.leaf v)) :
    ∃ s', Verif.ConfigDb.step s (.moveRelative n) = some (.flag false, s') ∧ Hist s' db := by
  obtain ⟨s', h1, h2⟩ := hist_step h (.moveRelative n) hn
  have e : Spec.ConfigDb.step db (.moveRelative n) = (.flag false, db) := by
    simp only [Spec.ConfigDb.step, moveTo, hs]
    rw [if_neg (by rw [hi]; simp [isNode])]
  rw [e] at h1 h2
  exact ⟨s', h1, h2⟩

theorem hist_back (item : List Name → Option (Item V)) (p : List Name) (n : Name) (h : Hist s ⟨item, p ++ [n]⟩) :
    ∃ s', Verif.ConfigDb.step s (.moveToAncestor 1) = some (.flag true, s') ∧ Hist s' ⟨item, p⟩ := by
  obtain ⟨s', h1, h2⟩ := hist_step h (.moveToAncestor 1) rfl
  have e : Spec.ConfigDb.step ⟨item, p ++ [n]⟩ (.moveToAncestor 1) = (.flag true, ⟨item, p⟩) := by
    simp only [Spec.ConfigDb.step]
    rw [if_pos ⟨Nat.le_refl 1, by simp⟩]
    simp
  rw [e] at h1 h2
  exact ⟨s', h1, h2⟩

end Verif.Spec.ConfigDb
